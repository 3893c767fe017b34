import Verif.Proofs.InflateStall
/-!
# Input that is read and then forgotten

When a chunk of the input expands to more than the output buffer takes, and the chunk before it left the dictionary
partly filled, `mz_inflate` returns with a full output buffer and a rest in the dictionary. The next call hands over the
rest only, and leaves room in the output buffer, which makes `npy_inflate` read the next chunk over the unread part of
this one.
-/

set_option maxRecDepth 8000

namespace Npy
open Spec.Deflate

section
variable {W : Nat → Nat → Prop} {out : Bytes} {L : Nat}

/-- While there is output to come, some byte is written next, when no more is unread than now. -/
theorem Co.wp_next {Q : Post Unit} {N : Nat} (hQ : ∀ a r h c, Q a r h c → N ≤ h.length) (co : Co Unit) :
    ∀ {rest hist : Bytes} {c : Nat}, co.wp W Q rest hist c → hist.length < N →
    ∃ r, r ≤ rest.length ∧ W hist.length r := by
  induction co with
  | pure a => intro rest hist c h hl; have := hQ _ _ _ _ h; omega
  | stop r => intro rest hist c h; exact absurd h id
  | getByte k ih =>
    intro rest hist c h hl
    match rest, h with
    | [], h => exact absurd h id
    | x :: xs, h =>
      obtain ⟨r, h1, h2⟩ := ih x h hl
      exact ⟨r, by rw [List.length_cons]; omega, h2⟩
  | availIn k ih => intro rest hist c h hl; exact ih 0 (h 0 (Nat.zero_le _)) hl
  | availOut k ih => intro rest hist c h hl; exact ih c (h c (Nat.le_refl _)) hl
  | waitOut k ih => intro rest hist c h hl; exact ⟨_, Nat.le_refl _, h.1⟩
  | put b k ih => intro rest hist c h hl; exact ⟨_, Nat.le_refl _, h.2.1⟩
  | putBack d k ih => intro rest hist c h hl; exact ⟨_, Nat.le_refl _, h.2.1⟩

theorem AllOut.next {co : Co Unit} {rest hist : Bytes} {c : Nat} (h : co.wp W (AllOut out L) rest hist c)
    (hl : hist.length < out.length) : ∃ r, r ≤ rest.length ∧ W hist.length r :=
  Co.wp_next (fun _ _ _ _ h => by rw [← h.1, List.length_reverse]) co h hl

/-- The state in which a rest is in the dictionary and the output buffer is full. -/
structure Stuck (W : Nat → Nat → Prop) (L : Nat) (out later prev : Bytes) (H K : Nat) (s : InflateState) : Prop where
  wp : s.co.wp W (AllOut out L) (s.inp ++ later) s.hist 0
  now : W s.hist.length (s.inp ++ later).length
  last : ∃ r, (s.inp ++ later).length ≤ r ∧ W (s.hist.length - 1) r
  len : s.hist.length = 32768 * K
  avail : s.dictAvail = 32768 * K - H
  ofs : (s.dictOfs + s.dictAvail) % 32768 = 0
  full : s.availOut = 0
  status : s.lastStatus = .hasMoreOutput
  outp : prev ++ s.out ++ (s.hist.take s.dictAvail).reverse = s.hist.reverse

theorem flush_some {s : InflateState} (h : s.availOut ≤ s.dictAvail) :
    s.flush = { s with out := s.out ++ (s.hist.take s.dictAvail).reverse.take s.availOut, availOut := 0,
                       dictAvail := s.dictAvail - s.availOut, dictOfs := (s.dictOfs + s.availOut) % 32768 } := by
  unfold InflateState.flush
  rw [Nat.min_eq_right h]
  simp only [Nat.sub_self]
  rw [show (32767 : Nat) = 2 ^ 15 - 1 from rfl, Nat.and_two_pow_sub_one_eq_mod]

theorem take_reverse_take {l : Bytes} {n k : Nat} (hn : n ≤ l.length) (hk : k ≤ n) :
    (l.take n).reverse.take k ++ (l.take (n - k)).reverse = (l.take n).reverse := by
  have : l.take (n - k) = (l.take n).take (n - k) := by rw [List.take_take, Nat.min_eq_left (by omega)]
  rw [this, ← List.take_append_drop k (l.take n).reverse]
  congr 1
  · simp
  · rw [List.drop_reverse, List.length_take, Nat.min_eq_left hn]

/-- A call of `mz_inflate` that ends with a rest in the dictionary: `H` is what is written when the output buffer is
full. -/
theorem mzLoop_stuck {later : Bytes} (orig : Nat) {prev : Bytes} {H K : Nat} (hH : H < 32768 * K) (hK : 32768 * K < H + 32768)
    (hout : 32768 * K < out.length) (hin : ∀ h r, h ≤ 32768 * K → W h r → later.length < r) (f : Nat) :
    ∀ {s : InflateState}, Run W L out later s → s.hist.length + s.availOut = H → s.availOut ≠ 0 →
    prev ++ s.out = s.hist.reverse → 32768 * K < f + s.hist.length →
    ∃ s', mzInflateLoop orig f s = (.ok .ok, s') ∧ Stuck W L out later prev H K s' ∧
      ∃ used, s.inp = used ++ s'.inp := by
  induction f with
  | zero => intro s hr h1 _ _ hf; omega
  | succ f ih =>
    intro s hr hHs hav hpo hf
    obtain ⟨c, hc, hw⟩ := hr.wp
    obtain ⟨st, t, hres, R⟩ := Co.resume_wp s.co hw hc
    have hofs := hr.ofs
    have hofs2 : s.dictOfs < 32768 := by rw [← hofs]; exact Nat.mod_lt _ (by omega)
    have hlen := R.len
    have hroom := R.room
    obtain ⟨new, hnew⟩ := R.new
    obtain ⟨used, hused⟩ := R.used
    have hnl := congrArg List.length hnew
    rw [List.length_append] at hnl
    have hda : 32768 - s.dictOfs - t.room = new.length := by omega
    have hle : t.hist.length ≤ 32768 * K := by omega
    have hstep := mzLoop_step (orig := orig) (f := f) hres
    rcases R.cases with ⟨rfl, h2, c', h3⟩ | ⟨rfl, h2, h3, c', h4, h5⟩ | ⟨rfl, h2, h34, h5⟩
    · exfalso
      have := congrArg List.length h3.1
      rw [List.length_reverse] at this
      omega
    · exfalso
      obtain ⟨r, hr1, hr2⟩ := AllOut.next h5 (by omega)
      have := hin _ _ hle hr2
      omega
    · have hne : t.inp ≠ [] := by
        intro h
        have := hin _ _ hle h34
        rw [h] at this
        simp at this
      have hmod : t.hist.length % 32768 = 0 := by omega
      rw [hstep]
      by_cases hbig : t.hist.length = 32768 * K
      · -- the output buffer is full
        have hlt : s.availOut < new.length := by omega
        have hF := flush_some (s := afterResume s .hasMoreOutput t)
          (by show s.availOut ≤ 32768 - s.dictOfs - t.room; omega)
        generalize hs' : (afterResume s .hasMoreOutput t).flush = s' at hF
        have e_co : s'.co = t.co := by rw [hF]; rfl
        have e_inp : s'.inp = t.inp := by rw [hF]; rfl
        have e_hist : s'.hist = t.hist := by rw [hF]; rfl
        have e_st : s'.lastStatus = .hasMoreOutput := by rw [hF]; rfl
        have e_da : s'.dictAvail = new.length - s.availOut := by rw [hF]; show 32768 - s.dictOfs - t.room - s.availOut = _; omega
        have e_av : s'.availOut = 0 := by rw [hF]
        have e_ofs : s'.dictOfs = (s.dictOfs + s.availOut) % 32768 := by rw [hF]; rfl
        have e_out : s'.out = s.out ++ (t.hist.take new.length).reverse.take s.availOut := by
          rw [hF, ← hda]; rfl
        dsimp only [mzCont]
        rw [if_neg (by simp), if_pos (Or.inr (Or.inr (Or.inl e_av))), if_neg (by simp)]
        refine ⟨_, rfl, ⟨by rw [e_co, e_inp, e_hist]; exact h5, by rw [e_inp, e_hist]; exact h34,
          by rw [e_inp, e_hist]; exact R.last (by omega), by rw [e_hist, hbig], by omega, ?_, e_av, e_st, ?_⟩, used,
          by rw [e_inp]; exact hused⟩
        · rw [e_ofs, e_da]; omega
        · rw [e_out, e_hist, e_da, ← List.append_assoc, List.append_assoc _ (List.take _ _),
            take_reverse_take (by omega) (by omega), hnew, List.take_left, hpo, ← List.reverse_append]
      · have hlt : 32768 - s.dictOfs - t.room ≤ s.availOut := by omega
        have hF := flush_all (s := afterResume s .hasMoreOutput t) hlt
        generalize hs' : (afterResume s .hasMoreOutput t).flush = s' at hF
        have e_co : s'.co = t.co := by rw [hF]; rfl
        have e_inp : s'.inp = t.inp := by rw [hF]; rfl
        have e_hist : s'.hist = t.hist := by rw [hF]; rfl
        have e_st : s'.lastStatus = .hasMoreOutput := by rw [hF]; rfl
        have e_da : s'.dictAvail = 0 := by rw [hF]
        have e_ofs : s'.dictOfs = t.hist.length % 32768 := by
          have : s'.dictOfs = (s.dictOfs + (32768 - s.dictOfs - t.room)) % 32768 := by rw [hF]; rfl
          rw [this, hda, hnl, ← hofs]; omega
        have e_out : prev ++ s'.out = s'.hist.reverse := by
          have : s'.out = s.out ++ (t.hist.take (32768 - s.dictOfs - t.room)).reverse := by rw [hF]; rfl
          rw [this, e_hist, hda, hnew, List.take_left, ← List.append_assoc, hpo, List.reverse_append]
        have e_av : s'.availOut = s.availOut - new.length := by
          have : s'.availOut = s.availOut - (32768 - s.dictOfs - t.room) := by rw [hF]; rfl
          rw [this, hda]
        have hav' : s'.availOut ≠ 0 := by rw [e_av]; omega
        dsimp only [mzCont]
        rw [if_neg (by simp), if_neg (by rw [e_inp, e_da]; simp [hne, hav'])]
        have hrun : Run W L out later s' := by
          refine ⟨⟨0, Nat.zero_le _, ?_⟩, by rw [e_hist, e_ofs], e_da, by rw [e_st]; simp, ?_⟩
          · rw [e_co, e_inp, e_hist]; exact h5
          · intro _
            rw [e_hist, e_inp]
            exact R.last (by omega)
        obtain ⟨s2, i1, i2, u2, i3⟩ := ih hrun (by rw [e_hist, e_av]; omega) hav' e_out (by rw [e_hist]; omega)
        exact ⟨s2, i1, i2, used ++ u2, by rw [hused, List.append_assoc, ← i3, e_inp]⟩

/-- The state in which the rest of the chunk is forgotten. -/
structure Lost (W : Nat → Nat → Prop) (L : Nat) (out later : Bytes) (K : Nat) (s : InflateState) : Prop where
  wp : s.co.wp W (AllOut out L) (s.inp ++ later) s.hist 0
  now : W s.hist.length (s.inp ++ later).length
  last : ∃ r, (s.inp ++ later).length ≤ r ∧ W (s.hist.length - 1) r
  len : s.hist.length = 32768 * K
  avail : s.dictAvail = 0
  ofs : s.dictOfs = 0
  status : s.lastStatus ≠ .failed

/-- The inner loop of `npy_inflate`: the chunk is not read to its end. -/
theorem inner_stuck {later : Bytes} {F f H K : Nat} {s : InflateState} {output : Bytes} (hH : H < 32768 * K)
    (hK : 32768 * K < H + 32768)
    (hout : 32768 * K < out.length) (hin : ∀ h r, h ≤ 32768 * K → W h r → later.length < r) (hr : Run W L out later s)
    (hHs : s.hist.length + CHUNK = H) (ho : output = s.hist.reverse) (hF : out.length < F) :
    ∃ s' output', npyInflateInner F (f + 2) s output = .ok (.ok, s', output') ∧ Lost W L out later K s' ∧
      output' = s'.hist.reverse ∧ ∃ used, s.inp = used ++ s'.inp := by
  have hC : CHUNK = 1048576 := rfl
  obtain ⟨s1, h1, h2, h3⟩ := mzLoop_stuck (L := L) (prev := output) s.inp.length hH hK hout hin F hr.fresh hHs
    (by simp [Npy.fresh, CHUNK]) (by simp [Npy.fresh, ho]) (by omega)
  have h1' : mzInflate F { s with availOut := CHUNK, out := [] } = (.ok .ok, s1) := by
    have e : mzInflate F (fresh s) = mzInflateLoop s.inp.length F (fresh s) := by
      unfold mzInflate
      rw [if_neg hr.fresh.status, if_neg (by simpa using hr.fresh.avail)]
      rfl
    exact e.trans h1
  have hav : s1.dictAvail ≠ 0 := by rw [h2.avail]; omega
  have hsmall : s1.dictAvail < CHUNK := by rw [h2.avail]; omega
  have hF2 := flush_all (s := fresh s1) (by show s1.dictAvail ≤ CHUNK; omega)
  generalize hs2 : (fresh s1).flush = s2 at hF2
  have h4 : mzInflate F { s1 with availOut := CHUNK, out := [] } = (.ok .ok, s2) := by
    have e : mzInflate F (fresh s1) = (.ok (if (fresh s1).flush.lastStatus = .done ∧ (fresh s1).flush.dictAvail = 0 then .streamEnd else .ok), (fresh s1).flush) := by
      unfold mzInflate
      rw [if_neg (by show s1.lastStatus ≠ _; rw [h2.status]; simp), if_pos (by exact hav)]
    refine Eq.trans e ?_
    rw [hs2, if_neg ?_]
    rw [hF2]
    show ¬ (s1.lastStatus = .done ∧ _)
    rw [h2.status]
    simp
  have e_out : s2.out = (s1.hist.take s1.dictAvail).reverse := by rw [hF2]; rfl
  have e_av : s2.availOut = CHUNK - s1.dictAvail := by rw [hF2]; rfl
  have e_hist : s2.hist = s1.hist := by rw [hF2]; rfl
  have e_inp : s2.inp = s1.inp := by rw [hF2]; rfl
  have e_co : s2.co = s1.co := by rw [hF2]; rfl
  have e_st : s2.lastStatus = s1.lastStatus := by rw [hF2]; rfl
  have e_ofs : s2.dictOfs = (s1.dictOfs + s1.dictAvail) % 32768 := by rw [hF2]; rfl
  have e_da : s2.dictAvail = 0 := by rw [hF2]
  rw [npyInflateInner, h1']
  dsimp only
  rw [if_pos h2.full, npyInflateInner, h4]
  dsimp only
  rw [if_neg (by rw [e_av]; omega)]
  refine ⟨_, _, rfl, ⟨by rw [e_co, e_inp, e_hist]; exact h2.wp, by rw [e_inp, e_hist]; exact h2.now,
    by rw [e_inp, e_hist]; exact h2.last,     by rw [e_hist]; exact h2.len, e_da,
    by rw [e_ofs]; exact h2.ofs, by rw [e_st, h2.status]; simp⟩, ?_, ?_⟩
  · rw [e_out, e_hist, h2.outp]
  · rw [e_inp]; exact h3

end

/-! ### The stream -/

/-- Three bits of a literal 0 and five bits of the next one. -/
def lossV : UInt8 := 0x60

/-- Eight matches of 258 bytes at distance 1, between three bits of a literal and five bits of the next one. -/
def lossP : Bytes := packN 13 (List.replicate 3 false ++
  ((List.replicate 8 (Tok.copy 285 0 0 0)).flatMap (Tok.bits fixedLit fixedDist)).take 101)

/-- One block with fixed codes: `CHUNK + 100` literals, 4056 matches and `n` literals, then the end of the block. -/
def lossToks (n : Nat) : List Tok :=
  List.replicate (CHUNK + 100) (.lit 0) ++ (List.replicate (8 * 507) (.copy 285 0 0 0) ++ List.replicate n (.lit 0))

def lossRest (n : Nat) : Bytes := List.replicate n lossV ++ [0, 0]

def lossChunk1 : Bytes := 0x63 :: List.replicate (CHUNK - 1) lossV

def lossHead : Bytes := List.replicate 100 lossV ++ (List.replicate 507 lossP).flatten

theorem bits_rep_v (n : Nat) (R : List Bool) : Spec.bits (List.replicate n lossV) ++ (List.replicate 3 false ++ R) =
    List.replicate 3 false ++ ((List.replicate n (Tok.lit 0)).flatMap (Tok.bits fixedLit fixedDist) ++ R) := by
  induction n with
  | zero => rfl
  | succ n ih =>
    rw [List.replicate_succ, bits_cons, List.append_assoc, ih, List.replicate_succ (n := n) (a := Tok.lit 0), List.flatMap_cons]
    have : Spec.byteBits lossV ++ List.replicate 3 false = List.replicate 3 false ++ Tok.bits fixedLit fixedDist (.lit 0) := by
      decide +kernel
    rw [← List.append_assoc, this]
    simp only [List.append_assoc]

theorem bits_rep_p (n : Nat) (R : List Bool) :
    Spec.bits (List.replicate n lossP).flatten ++ (List.replicate 3 false ++ R) =
    List.replicate 3 false ++ ((List.replicate (8 * n) (Tok.copy 285 0 0 0)).flatMap (Tok.bits fixedLit fixedDist) ++ R) := by
  induction n with
  | zero => rfl
  | succ n ih =>
    rw [List.replicate_succ, List.flatten_cons, bits_append, List.append_assoc, ih]
    have : Spec.bits lossP ++ List.replicate 3 false = List.replicate 3 false ++
        (List.replicate 8 (Tok.copy 285 0 0 0)).flatMap (Tok.bits fixedLit fixedDist) := by
      decide +kernel
    rw [← List.append_assoc, this, show 8 * (n + 1) = 8 + 8 * n by omega, List.replicate_add, List.flatMap_append]
    simp only [List.append_assoc]

theorem loss_bits (n : Nat) : Spec.bits (lossChunk1 ++ (lossHead ++ lossRest n)) =
    (Block.fixed (lossToks n)).bits true ++ List.replicate 6 false := by
  have h1 : lossChunk1 ++ (lossHead ++ lossRest n) = 0x63 :: (List.replicate (CHUNK + 99) lossV ++
      ((List.replicate 507 lossP).flatten ++ (List.replicate n lossV ++ [0, 0]))) := by
    rw [lossChunk1, lossHead, lossRest, show CHUNK + 99 = (CHUNK - 1) + 100 by simp [CHUNK], List.replicate_add]
    simp only [List.cons_append, List.append_assoc]
  rw [h1, bits_cons, bits_append, bits_append, bits_append]
  have h2 : Spec.bits ([0, 0]) = List.replicate 3 false ++ (huff fixedLit 256 ++ List.replicate 6 false) := by
    decide +kernel
  rw [h2, bits_rep_v, bits_rep_p, bits_rep_v]
  have h3 : Spec.byteBits 0x63 ++ List.replicate 3 false = true :: (lsb 2 1 ++ Tok.bits fixedLit fixedDist (.lit 0)) := by
    decide +kernel
  rw [← List.append_assoc, h3, Block.bits, lossToks, show CHUNK + 100 = (CHUNK + 99) + 1 from rfl, List.replicate_succ (n := CHUNK + 99) (a := Tok.lit 0)]
  simp only [List.flatMap_append, List.flatMap_cons, List.cons_append, List.append_assoc]

theorem loss_ok (n : Nat) : ∀ t ∈ lossToks n, t.Ok fixedLit fixedDist := by
  intro t ht
  have : t = .lit 0 ∨ t = .copy 285 0 0 0 := by
    simp only [lossToks, List.mem_append, List.mem_replicate] at ht
    tauto
  rcases this with rfl | rfl
  · show lenOf fixedLit 0 ≠ 0
    decide +kernel
  · simp only [Tok.Ok]
    decide +kernel

theorem loss_expand (n : Nat) : expandToks [] (lossToks n) = some (List.replicate (CHUNK + 1046548 + n) 0) := by
  rw [lossToks, expandToks_append]
  have h := expand_litZeros (CHUNK + 100) 0
  rw [List.replicate_zero] at h
  rw [h, Option.bind_some, expandToks_append, expand_copyZeros _ _ (by omega), Option.bind_some, expand_litZeros]
  rw [show 0 + (CHUNK + 100) + 258 * (8 * 507) + n = CHUNK + 1046548 + n by omega]

theorem lits_length (n : Nat) : ((List.replicate n (Tok.lit 0)).flatMap (Tok.bits fixedLit fixedDist)).length = 8 * n := by
  induction n with
  | zero => rfl
  | succ n ih =>
    rw [List.replicate_succ, List.flatMap_cons, List.length_append, ih,
      show (Tok.bits fixedLit fixedDist (.lit 0)).length = 8 by decide +kernel]
    omega

theorem copies_length (n : Nat) :
    ((List.replicate n (Tok.copy 285 0 0 0)).flatMap (Tok.bits fixedLit fixedDist)).length = 13 * n := by
  induction n with
  | zero => rfl
  | succ n ih =>
    rw [List.replicate_succ, List.flatMap_cons, List.length_append, ih,
      show (Tok.bits fixedLit fixedDist (.copy 285 0 0 0)).length = 13 by decide +kernel]
    omega

section
variable {W : Nat → Nat → Prop} {L : Nat}

theorem waitsOk_lits {ts : List Tok} (n : Nat) : ∀ {o : List UInt8},
    (∀ i, i < n → WaitAt W (o.length + i) (8 * (n - 1 - i) + ((ts.flatMap (Tok.bits fixedLit fixedDist)).length + L))) →
    (∀ o', expandToks o (List.replicate n (.lit 0)) = some o' → WaitsOk W fixedLit fixedDist L o' ts) →
    WaitsOk W fixedLit fixedDist L o (List.replicate n (.lit 0) ++ ts) := by
  induction n with
  | zero => intro o _ h; exact h o rfl
  | succ n ih =>
    intro o h1 h2
    rw [List.replicate_succ, List.cons_append]
    refine ⟨fun o' e h ha hb => ?_, fun o' e => ?_⟩
    · simp only [Tok.expand, Option.some.injEq] at e
      rw [← e, List.length_append, List.length_singleton] at hb
      have := h1 0 (by omega)
      rw [List.flatMap_append, List.length_append, lits_length]
      rw [show h = o.length + 0 by omega]
      rw [show 8 * (n + 1 - 1 - 0) = 8 * n by omega] at this
      rw [Nat.add_assoc]
      exact this
    · simp only [Tok.expand, Option.some.injEq] at e
      subst e
      apply ih
      · intro i hi
        have := h1 (i + 1) (by omega)
        rw [List.length_append, List.length_singleton, show o.length + 1 + i = o.length + (i + 1) by omega]
        rw [show n + 1 - 1 - (i + 1) = n - 1 - i by omega] at this
        exact this
      · intro o' e
        apply h2
        rw [List.replicate_succ, expandToks]
        simp only [Tok.expand, Option.bind_some]
        exact e

theorem waitsOk_copies {ts : List Tok} (n : Nat) : ∀ {o : List UInt8},
    (∀ h r, o.length ≤ h → h < o.length + 258 * n → (ts.flatMap (Tok.bits fixedLit fixedDist)).length + L ≤ 8 * r + 62 →
      8 * r ≤ 13 * n + ((ts.flatMap (Tok.bits fixedLit fixedDist)).length + L) → W h r) →
    (∀ o', expandToks o (List.replicate n (.copy 285 0 0 0)) = some o' → WaitsOk W fixedLit fixedDist L o' ts) →
    WaitsOk W fixedLit fixedDist L o (List.replicate n (.copy 285 0 0 0) ++ ts) := by
  induction n with
  | zero => intro o _ h; exact h o rfl
  | succ n ih =>
    intro o h1 h2
    rw [List.replicate_succ, List.cons_append]
    have hl : ∀ o', Tok.expand o (.copy 285 0 0 0) = some o' → o'.length = o.length + 258 := fun o' e => copyBack_length e
    refine ⟨fun o' e h ha hb r hr1 hr2 => ?_, fun o' e => ?_⟩
    · have := hl o' e
      rw [List.flatMap_append, List.length_append, copies_length] at hr1 hr2
      exact h1 h r ha (by omega) (by omega) (by omega)
    · have := hl o' e
      apply ih
      · intro h r ha hb hr hr'
        exact h1 h r (by omega) (by omega) hr (by omega)
      · intro o'' e2
        apply h2
        rw [List.replicate_succ, expandToks, e, Option.bind_some]
        exact e2

end

/-- What is unread when the byte number `h` is written. -/
structure LossAt (n h r : Nat) : Prop where
  lt : h < 2095124 + n
  some : h + 8 ≤ 2095124 + n → 1 ≤ r
  first : h < 1048676 → h + r ≤ 1055267 + n ∧ 1055260 + n ≤ h + r
  low : n ≤ r + 6 + (max (h + 1) 2095124 - 2095124)
  mid : 1048676 ≤ h → r ≤ 6592 + n
  tail : 2095124 ≤ h → r + h ≤ n + 2095124

theorem LossAt.of_first {n i r : Nat} (hi : i < 1048676) (h1 : 8 * r ≤ 8 * (1048676 - 1 - i) + (13 * (8 * 507) + 8 * n + 13))
    (h2 : 8 * (1048676 - 1 - i) + (13 * (8 * 507) + 8 * n + 13) ≤ 8 * r + 62) : LossAt n i r := by
  constructor <;> omega

theorem LossAt.of_mid {n h r : Nat} (h1 : 1048676 ≤ h) (h2 : h < 1048676 + 258 * (8 * 507)) (h3 : 8 * n + 13 ≤ 8 * r + 62)
    (h4 : 8 * r ≤ 13 * (8 * 507) + (8 * n + 13)) (hn : 1000 ≤ n) : LossAt n h r := by
  constructor <;> omega

theorem LossAt.of_last {n i r : Nat} (hi : i < n) (h1 : 8 * r ≤ 8 * (n - 1 - i) + 13)
    (h2 : 8 * (n - 1 - i) + 13 ≤ 8 * r + 62) : LossAt n (2095124 + i) r := by
  constructor <;> omega

theorem loss_waits (n : Nat) (hn : 1000 ≤ n) :
    WaitsOk (LossAt n) fixedLit fixedDist (huff fixedLit 256 ++ List.replicate 6 false).length [] (lossToks n) := by
  have hL : (huff fixedLit 256 ++ List.replicate 6 false).length = 13 := by decide +kernel
  rw [hL, lossToks]
  apply waitsOk_lits
  · intro i hi r hr1 hr2
    rw [List.flatMap_append, List.length_append, copies_length, lits_length] at hr1 hr2
    simp only [List.length_nil, Nat.zero_add]
    exact LossAt.of_first hi hr1 hr2
  · intro o' e
    have h := expand_litZeros (CHUNK + 100) 0
    rw [List.replicate_zero] at h
    rw [h] at e
    simp only [Option.some.injEq] at e
    have hl := congrArg List.length e
    rw [List.length_replicate] at hl
    have hl' : o'.length = 1048676 := hl.symm.trans rfl
    apply waitsOk_copies
    · intro h r h1 h2 h3 h4
      rw [lits_length] at h3 h4
      rw [hl'] at h1 h2
      exact LossAt.of_mid h1 h2 h3 h4 hn
    · intro o2 e2
      rw [← e, expand_copyZeros _ _ (by omega)] at e2
      simp only [Option.some.injEq] at e2
      have hl2 := congrArg List.length e2
      rw [List.length_replicate] at hl2
      have hl2' : o2.length = 2095124 := hl2.symm.trans rfl
      rw [← List.append_nil (List.replicate n (Tok.lit 0))]
      apply waitsOk_lits
      · intro i hi r hr1 hr2
        simp only [List.flatMap_nil, List.length_nil, Nat.zero_add] at hr1 hr2
        rw [hl2']
        exact LossAt.of_last hi hr1 hr2
      · intro _ _; exact trivial

theorem loss_wp (n fuel : Nat) (hn : 1000 ≤ n) (hf : 2097152 + n ≤ fuel) :
    (tinfl false fuel).wp (LossAt n) (AllOut (List.replicate (2095124 + n) 0) 6) (lossChunk1 ++ (lossHead ++ lossRest n)) [] 0 := by
  have hC : CHUNK = 1048576 := rfl
  have := wp_fixed (fuel := fuel) (loss_bits n) (loss_ok n) (loss_expand n) (loss_waits n hn) (by
    rw [lossToks]
    simp only [List.length_append, List.length_replicate]
    omega)
  rwa [List.length_replicate] at this

/-! ### What becomes of it -/

theorem lossHead_length : lossHead.length = 6691 := by
  have : ∀ n, (List.replicate n lossP).flatten.length = 13 * n := by
    intro n
    induction n with
    | zero => rfl
    | succ n ih =>
      rw [List.replicate_succ, List.flatten_cons, List.length_append, ih, show lossP.length = 13 from packN_length _ _]
      omega
  rw [lossHead, List.length_append, List.length_replicate, this]

theorem lossRest_length (n : Nat) : (lossRest n).length = n + 2 := by
  rw [lossRest, List.length_append, List.length_replicate]; rfl

theorem lossChunk1_length : lossChunk1.length = CHUNK := by
  rw [lossChunk1, List.length_cons, List.length_replicate]; simp [CHUNK]

/-- The second chunk. -/
def lossChunk2 : Bytes := lossHead ++ List.replicate 1041885 lossV

theorem lossChunk2_length : lossChunk2.length = CHUNK := by
  rw [lossChunk2, List.length_append, lossHead_length, List.length_replicate]; rfl

theorem LossAt.up {n m h r : Nat} (H : LossAt n (h - 1) r) (hn : n = 1041885 + m) (hr : 1048576 + m + 2 ≤ r) :
    h < 1048576 := by
  have h1 := H.lt
  have h2 := H.first
  have h3 := H.mid
  omega

theorem LossAt.lo {n m h r : Nat} (H : LossAt n h r) (hn : n = 1041885 + m) (hr : r ≤ 1048576 + m + 2)
    (hh : h < 1048576) : 1048576 ≤ h + 9 := by
  have h2 := H.first
  omega

theorem LossAt.more {n m h r : Nat} (H : LossAt n h r) (hn : n = 1041885 + m) (hh : h ≤ 2097152) : m + 2 < r := by
  have h2 := H.low
  omega

/-- The first two chunks are worked on, and all but the beginning of the second one is forgotten. -/
theorem loss_inner (n m fuel : Nat) (hn : n = 1041885 + m) (hf : 4194304 + n ≤ fuel) :
    ∃ r1 s1 o1 s2 o2,
      npyInflateInner fuel fuel { inflateInit false fuel with inp := lossChunk1 } [] = .ok (r1, s1, o1) ∧ r1 ≠ .streamEnd ∧
      npyInflateInner fuel fuel { s1 with inp := lossChunk2 } o1 = .ok (.ok, s2, o2) ∧
      Lost (LossAt n) 6 (List.replicate (2095124 + n) 0) (lossRest m) 64 s2 ∧
      o2 = s2.hist.reverse ∧ ∃ used, lossChunk2 = used ++ s2.inp := by
  have hC : CHUNK = 1048576 := rfl
  have hrest : lossHead ++ lossRest n = lossChunk2 ++ lossRest m := by
    rw [lossChunk2, lossRest, lossRest, hn, List.replicate_add]
    simp only [List.append_assoc]
  have hwp := loss_wp n fuel (by omega) (by omega)
  rw [hrest] at hwp
  have hlen2 : (lossChunk2 ++ lossRest m).length = 1048576 + m + 2 := by
    rw [List.length_append, lossChunk2_length, lossRest_length]; rfl
  have hol : (List.replicate (2095124 + n) (0 : UInt8)).length = 2095124 + n := List.length_replicate
  generalize hout : List.replicate (2095124 + n) (0 : UInt8) = out at hwp hol ⊢
  have hN : ∀ h r, LossAt n h r → h < out.length ∧ (h % 32768 = 0 → 0 ≤ r) := by
    intro h r hh
    rw [hol]
    exact ⟨hh.lt, fun _ => Nat.zero_le _⟩
  have hrun : Run (LossAt n) 6 out ((lossChunk2 ++ lossRest m) ++ []) { inflateInit false fuel with inp := lossChunk1 } := by
    refine ⟨⟨0, Nat.zero_le _, ?_⟩, rfl, rfl, by simp [inflateInit], fun h => absurd h (Nat.lt_irrefl 0)⟩
    rw [List.append_nil]
    exact hwp
  obtain ⟨r1, s1, o1, h1, h2⟩ := inner_run hN (F := fuel) (by omega) fuel (output := []) hrun (Or.inl rfl) rfl
    (by show _ < fuel + 0; omega)
  rcases h2 with ⟨-, -, h⟩ | ⟨h2, hrun1, hinp, ho1, -⟩
  · rw [List.append_nil, hlen2] at h
    omega
  rw [List.append_nil] at hrun1
  -- how much is written
  have hup : s1.hist.length < CHUNK := by
    by_cases h0 : 0 < s1.hist.length
    · obtain ⟨r, hr1, hr2⟩ := hrun1.last h0
      rw [hinp, List.nil_append, hlen2] at hr1
      exact hr2.up hn hr1
    · omega
  have hlo : CHUNK ≤ s1.hist.length + 9 := by
    obtain ⟨c, -, hw⟩ := hrun1.wp
    obtain ⟨r, hr1, hr2⟩ := AllOut.next hw (by omega)
    rw [hinp, List.nil_append, hlen2] at hr1
    exact hr2.lo hn hr1 hup
  -- the second chunk
  have hrun2 : Run (LossAt n) 6 out (lossRest m) { s1 with inp := lossChunk2 } := by
    refine ⟨?_, hrun1.ofs, hrun1.avail, hrun1.status, ?_⟩
    · have := hrun1.wp
      rw [hinp, List.nil_append] at this
      exact this
    · have := hrun1.last
      rw [hinp, List.nil_append] at this
      exact this
  obtain ⟨f, rfl⟩ : ∃ f, fuel = f + 2 := ⟨fuel - 2, by omega⟩
  obtain ⟨s2, o2, g1, g2, g3, g4⟩ := inner_stuck (F := f + 2) (f := f) (H := s1.hist.length + CHUNK) (K := 64) (output := o1)
    (by omega) (by omega) (by omega) (fun h r hh hr => by
      rw [lossRest_length]
      exact hr.more hn hh) hrun2 rfl ho1 (by omega)
  exact ⟨r1, s1, o1, s2, o2, h1, h2, g1, g2, g3, g4⟩

/-- The stream: three chunks. -/
def lossBytes : Bytes := lossChunk1 ++ (lossChunk2 ++ lossRest 1045000)

/-- What it stands for. -/
def lossOut : Bytes := List.replicate 4182009 0

theorem loss_length : lossBytes.length = 3142154 := by
  rw [lossBytes, List.length_append, List.length_append, lossChunk1_length, lossChunk2_length, lossRest_length]; rfl

theorem loss_inflates : InflatesExactly lossBytes lossOut := by
  refine ⟨[.fixed (lossToks (1041885 + 1045000))], List.replicate 6 false, by simp, ⟨loss_ok _, trivial⟩, ?_, ?_, ?_⟩
  · have h := loss_bits (1041885 + 1045000)
    have e : lossHead ++ lossRest (1041885 + 1045000) = lossChunk2 ++ lossRest 1045000 := by
      rw [lossChunk2, lossRest, lossRest, List.replicate_add]
      simp only [List.append_assoc]
    rw [e] at h
    exact h
  · simp
  · show (expandToks [] _).bind _ = _
    rw [loss_expand]; rfl

theorem suffix_rep {a x b : Bytes} {n : Nat} {v : UInt8} (h : a ++ x = b ++ List.replicate n v) (hx : x.length ≤ n) :
    x = List.replicate x.length v := by
  apply List.eq_replicate_iff.mpr ⟨rfl, fun y hy => ?_⟩
  have hl := congrArg List.length h
  simp only [List.length_append, List.length_replicate] at hl
  have : x = (List.replicate n v).drop (n - x.length) := by
    have e : (a ++ x).drop a.length = x := List.drop_left
    rw [h, List.drop_append, List.drop_eq_nil_of_le (by omega), List.nil_append] at e
    rw [← e]
    congr 1
    simp only [List.length_drop, List.length_replicate]
    omega
  rw [this, List.drop_replicate] at hy
  exact List.eq_of_mem_replicate hy

theorem loss_numbers {j m n' h r : Nat} (h1 : 1039848 ≤ j) (h2 : j ≤ 1039855) (hm : m = 1045000 - j) (hn : n' = 1041885 + m)
    (H : LossAt n' h r) (hh : h % 32768 = 0) : 1 ≤ r := by
  have h3 := H.lt
  apply H.some
  omega

theorem LossAt.unread {n r : Nat} (H : LossAt n 2097152 r) (hn : n = 1041885 + 1045000) : 2084850 ≤ r ∧ r ≤ 2084857 := by
  have h1 := H.low
  have h2 := H.tail
  omega

theorem outer_step {F f : Nat} {s s' : InflateState} {input input' : IStream} {output output' chunk : Bytes} {ret : MzRet}
    (h1 : IStream.read CHUNK input = (.ok chunk, input')) (h2 : (input'.fail && !input'.eof) = false) (h3 : chunk ≠ [])
    (h4 : npyInflateInner F F { s with inp := chunk } output = .ok (ret, s', output')) (h5 : ret ≠ .streamEnd) :
    npyInflateOuter F (f + 1) s input output = npyInflateOuter F f s' input' output' := by
  rw [npyInflateOuter, h1]
  dsimp only
  rw [if_neg (by rw [h2]; simp), if_neg h3, h4]
  dsimp only
  rw [if_neg h5]

/-- More than a million bytes are missing in the output, and there is no error. -/
theorem loss_wrong (fuel : Nat) (hf : 8388608 ≤ fuel) :
    ∃ out', npyInflate false fuel lossBytes = .ok out' ∧ out'.length + 1039848 ≤ lossOut.length := by
  have hC : CHUNK = 1048576 := rfl
  obtain ⟨r1, s1, o1, s2, o2, h1, h2, h3, h4, h5, used, h6⟩ := loss_inner (1041885 + 1045000) 1045000 fuel rfl (by omega)
  -- what is forgotten
  have hlen := h4.len
  have hnow := h4.now
  rw [hlen, List.length_append, lossRest_length] at hnow
  obtain ⟨hj1, hj2⟩ := hnow.unread rfl
  have hsuf := suffix_rep (h6.symm.trans (lossChunk2.eq_1)) (by omega)
  generalize hj : s2.inp.length = j at hsuf hj1 hj2
  clear hnow h4
  -- the same with a shorter stream
  obtain ⟨r1', s1', o1', s2', o2', k1, k2, k3, k4, k5, used', k6⟩ :=
    loss_inner (1041885 + (1045000 - j)) (1045000 - j) fuel rfl (by omega)
  rw [h1] at k1
  cases k1
  rw [h3] at k3
  cases k3
  have hrest : s2.inp ++ lossRest (1045000 - j) = lossRest 1045000 := by
    have e : 1045000 = j + (1045000 - j) := by omega
    rw [hsuf, lossRest, lossRest, ← List.append_assoc, ← List.replicate_add, ← e]
  have hwp := k4.wp
  have hlast := k4.last
  rw [hrest] at hwp hlast
  have hol : (List.replicate (2095124 + (1041885 + (1045000 - j))) (0 : UInt8)).length = 2095124 + (1041885 + (1045000 - j)) :=
    List.length_replicate
  generalize hout : List.replicate (2095124 + (1041885 + (1045000 - j))) (0 : UInt8) = out at hwp hol
  have hN : ∀ h r, LossAt (1041885 + (1045000 - j)) h r → h < out.length ∧ (h % 32768 = 0 → 1 ≤ r) := by
    intro h r hh
    rw [hol]
    exact ⟨hh.lt, fun h0 => loss_numbers (by omega) (by omega) rfl rfl hh h0⟩
  have hrun : Run (LossAt (1041885 + (1045000 - j))) 6 out (lossRest 1045000 ++ []) { s2 with inp := [] } := by
    refine ⟨⟨0, Nat.zero_le _, ?_⟩, ?_, k4.avail, k4.status, fun _ => ?_⟩
    · rw [List.append_nil, List.nil_append]; exact hwp
    · show s2.hist.length % 32768 = s2.dictOfs
      rw [hlen, k4.ofs]
    · rw [List.append_nil, List.nil_append]; exact hlast
  -- the reads
  obtain ⟨i1, a1, a2, a3⟩ := StreamAt.read (input := IStream.ofBytes lossBytes) (later := lossBytes) (Or.inl ⟨rfl, rfl⟩)
  rw [lossBytes, ← lossChunk1_length, List.take_left, lossChunk1_length] at a1
  rw [lossBytes, ← lossChunk1_length, List.drop_left] at a2
  obtain ⟨i2, b1, b2, b3⟩ := a2.read
  rw [← lossChunk2_length, List.take_left, lossChunk2_length] at b1
  rw [← lossChunk2_length, List.drop_left] at b2
  obtain ⟨f, hfe⟩ : ∃ f, fuel = f + 2 := ⟨fuel - 2, by omega⟩
  have hfin := outer_run hN (F := fuel) (by omega) f (later := lossRest 1045000) (s := s2) (input := i2) (output := o2) hrun
    (Or.inr (Or.inl ⟨List.drop_eq_nil_of_le (by rw [lossRest_length]; omega), k4.ofs⟩)) h5 b2
    (fun h => by have := congrArg List.length h; rw [lossRest_length] at this; simp at this) (by rw [lossRest_length]; omega)
  have hres : npyInflate false fuel lossBytes = npyInflateOuter fuel f s2 i2 o2 := by
    have e1 := outer_step (F := fuel) (f := f + 1) (s := inflateInit false fuel) (output := []) a1 a3
      (fun h => by have := congrArg List.length h; rw [lossChunk1_length] at this; simp [CHUNK] at this) h1 h2
    have e2 := outer_step (F := fuel) (f := f) (s := s1) (output := o1) b1 b3
      (fun h => by have := congrArg List.length h; rw [lossChunk2_length] at this; simp [CHUNK] at this) h3 (by simp)
    rw [← e2, ← e1, ← hfe]
    rfl
  rcases hfin with ⟨hfin, -⟩ | ⟨-, ⟨h, -⟩ | h⟩
  · exact ⟨out, hres.trans hfin, by rw [hol, lossOut, List.length_replicate]; omega⟩
  · simp at h
  · exact absurd rfl h

end Npy
