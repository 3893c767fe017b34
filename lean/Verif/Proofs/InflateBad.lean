import Verif.Proofs.InflateDrive
/-!
# Streams on which decompression goes wrong
-/

set_option maxRecDepth 8000

namespace Npy
open Spec.Deflate

section
variable {α β γ : Type}

theorem Co.bind_assoc (x : Co α) (f : α → Co β) (g : β → Co γ) : (x >>= f) >>= g = x >>= fun a => f a >>= g := by
  show Co.bind (Co.bind x f) g = Co.bind x fun a => Co.bind (f a) g
  induction x with
  | pure a => rfl
  | stop r => rfl
  | getByte k ih => exact congrArg Co.getByte (funext fun b => ih b)
  | availIn k ih => exact congrArg Co.availIn (funext fun b => ih b)
  | availOut k ih => exact congrArg Co.availOut (funext fun b => ih b)
  | waitOut k ih => exact congrArg Co.waitOut ih
  | put b k ih => exact congrArg (Co.put b) ih
  | putBack d k ih => exact congrArg (Co.putBack d) ih

theorem Co.pure_bind' (a : α) (f : α → Co β) : (Pure.pure a : Co α) >>= f = f a := rfl

/-- No waiting for room. -/
abbrev NoWait : Nat → Nat → Prop := fun _ _ => False

/-- A part of the coroutine that does not wait is run through. -/
theorem Co.resume_bind {Q : Post α} (x : Co α) : ∀ {inp hist : Bytes} {c room : Nat},
    x.wp NoWait Q inp hist c → c ≤ room →
    ∃ a inp' hist' room' c', (∀ f : α → Co Unit, (x >>= f).resume inp hist room = (f a).resume inp' hist' room') ∧
      Q a inp' hist' c' ∧ c' ≤ room' ∧ hist'.length + room' = hist.length + room := by
  show ∀ {inp hist : Bytes} {c room : Nat}, x.wp NoWait Q inp hist c → c ≤ room →
    ∃ a inp' hist' room' c', (∀ f : α → Co Unit, (Co.bind x f).resume inp hist room = (f a).resume inp' hist' room') ∧
      Q a inp' hist' c' ∧ c' ≤ room' ∧ hist'.length + room' = hist.length + room
  induction x with
  | pure a => intro inp hist c room h hc; exact ⟨a, inp, hist, room, c, fun _ => rfl, h, hc, rfl⟩
  | stop r => intro inp hist c room h hc; exact absurd h id
  | getByte k ih =>
    intro inp hist c room h hc
    match inp, h with
    | [], h => exact absurd h id
    | x :: xs, h => exact ih x h hc
  | availIn k ih => intro inp hist c room h hc; exact ih inp.length (h _ (Nat.le_refl _)) hc
  | availOut k ih => intro inp hist c room h hc; exact ih room (h room hc) (Nat.le_refl _)
  | waitOut k ih => intro inp hist c room h hc; exact absurd h.1 id
  | put b k ih =>
    intro inp hist c room h hc
    have h0 := h.1
    match room, hc with
    | 0, hc => omega
    | room + 1, hc =>
      obtain ⟨a, i, hh, r, c', e, q, e2, e3⟩ := ih (room := room) h.2.2 (by omega)
      exact ⟨a, i, hh, r, c', e, q, e2, by rw [e3, List.length_cons]; omega⟩
  | putBack d k ih =>
    intro inp hist c room h hc
    obtain ⟨h0, -, b, hb, hk⟩ := h
    match room, hc with
    | 0, hc => omega
    | room + 1, hc =>
      obtain ⟨a, i, hh, r, c', e, q, e2, e3⟩ := ih (room := room) hk (by omega)
      refine ⟨a, i, hh, r, c', fun f => ?_, q, e2, by rw [e3, List.length_cons]; omega⟩
      rw [Co.bind, Co.resume, hb]
      exact e f

end

/-! ### The input is used up when the dictionary is full -/

/-- When the first 32768 bytes are written, all the input is read. -/
def Stall (h r : Nat) : Prop := h = 32768 → r = 0

theorem npyInflate_stall {z out : Bytes} {fuel L : Nat} (hz : z ≠ []) (hl : z.length ≤ CHUNK) (ho : 32768 < out.length)
    (hw : (tinfl false fuel).wp Stall (AllOut out L) z [] 0) (hf : 2 ≤ fuel) :
    npyInflate false fuel z = .error (.throw (.runtimeError .inflateError)) := by
  obtain ⟨F, rfl⟩ : ∃ F, fuel = F + 2 := ⟨fuel - 2, by omega⟩
  have hC : CHUNK = 1048576 := rfl
  obtain ⟨input', h1, h2, h3⟩ := StreamAt.read (input := IStream.ofBytes z) (later := z) (Or.inl ⟨rfl, rfl⟩)
  obtain ⟨input2, h4, h5, h6⟩ := h2.read
  unfold npyInflate
  generalize hs : inflateInit false (F + 2) = s
  have hco : s.co = tinfl false (F + 2) := by rw [← hs]; rfl
  have hhist : s.hist = [] := by rw [← hs]; rfl
  have hofs : s.dictOfs = 0 := by rw [← hs]; rfl
  have hav : s.dictAvail = 0 := by rw [← hs]; rfl
  have hst : s.lastStatus ≠ .failed := by rw [← hs]; simp [inflateInit]
  have hdrop : z.drop CHUNK = [] := List.drop_eq_nil_of_le hl
  have htake : z.take CHUNK = z := List.take_of_length_le hl
  rw [htake] at h1
  rw [hdrop] at h4
  -- the only call of `mz_inflate`
  have hmz : ∃ s', mzInflate (F + 2) { s with inp := z, availOut := CHUNK, out := [] } = (.ok .ok, s') ∧
      s'.availOut ≠ 0 := by
    generalize hs1 : ({ s with inp := z, availOut := CHUNK, out := [] } : InflateState) = s1
    have a1 : s1.co = tinfl false (F + 2) := by rw [← hs1]; exact hco
    have a2 : s1.hist = [] := by rw [← hs1]; exact hhist
    have a3 : s1.dictOfs = 0 := by rw [← hs1]; exact hofs
    have a4 : s1.dictAvail = 0 := by rw [← hs1]; exact hav
    have a5 : s1.lastStatus ≠ .failed := by rw [← hs1]; exact hst
    have a6 : s1.inp = z := by rw [← hs1]
    have a7 : s1.availOut = CHUNK := by rw [← hs1]
    unfold mzInflate
    rw [if_neg a5, if_neg (by simpa using a4)]
    obtain ⟨st, t, hres, R⟩ := Co.resume_wp (later := []) (W := Stall) (Q := AllOut out L) (tinfl false (F + 2)) (inp := z)
      (hist := []) (c := 0) (room := 32768) (by rw [List.append_nil]; exact hw) (Nat.zero_le _)
    have hlen := R.len
    simp only [List.length_nil, Nat.zero_add] at hlen
    have hres' : s1.co.resume s1.inp s1.hist (32768 - s1.dictOfs) = (st, t) := by rw [a1, a2, a3, a6]; exact hres
    rw [mzLoop_step hres']
    rcases R.cases with ⟨_, _, c', h⟩ | ⟨_, _, h, _⟩ | ⟨rfl, h7, h8, _⟩
    · exfalso
      have hq : t.hist.reverse = out := h.1
      have := congrArg List.length hq
      rw [List.length_reverse] at this
      omega
    · exact absurd rfl h
    · have hin : t.inp = [] := by
        have := h8 (by omega)
        simpa using this
      have hF := flush_all (s := afterResume s1 .hasMoreOutput t) (by simp [afterResume, a3, a7, h7, CHUNK])
      generalize hs2 : (afterResume s1 .hasMoreOutput t).flush = s2 at hF
      have b1 : s2.inp = [] := by rw [hF]; exact hin
      have b2 : s2.availOut = CHUNK - 32768 := by rw [hF]; simp [afterResume, a3, a7, h7]
      dsimp only [mzCont]
      rw [if_neg (by simp), if_pos (Or.inr (Or.inl b1)), if_neg (by simp)]
      exact ⟨s2, rfl, by rw [b2]; omega⟩
  obtain ⟨s', hmz, hav'⟩ := hmz
  rw [npyInflateOuter, h1]
  dsimp only
  rw [if_neg (by rw [h3]; simp), if_neg hz, npyInflateInner, hmz]
  dsimp only
  rw [if_neg hav', ]
  dsimp only
  rw [if_neg (by simp), npyInflateOuter, h4]
  dsimp only
  rw [if_neg (by rw [h6]; simp), if_pos (by simp)]

/-- A final block with fixed codes. -/
theorem wp_fixed {W : Nat → Nat → Prop} {z out : Bytes} {toks : List Tok} {R : List Bool} {fuel : Nat}
    (hz : Spec.bits z = (Block.fixed toks).bits true ++ R) (hok : ∀ t ∈ toks, t.Ok fixedLit fixedDist)
    (he : expandToks [] toks = some out)
    (hw : WaitsOk W fixedLit fixedDist (huff fixedLit 256 ++ R).length [] toks) (hf : toks.length < fuel) :
    (tinfl false fuel).wp W (AllOut out R.length) z [] 0 := by
  obtain ⟨F, rfl⟩ : ∃ F, fuel = F + 1 := ⟨fuel - 1, by omega⟩
  unfold tinfl
  rw [blockLoop, Co.wp_bind]
  rw [Block.bits_eq, List.append_assoc] at hz
  apply wp_getBits (v := true.toNat + 2 * (Block.fixed toks).kind) ⟨by simp [BitBuf.Ok], by simp⟩
    ((strm_zero rfl z).trans hz) (by simp [Block.kind]) (by omega)
  intro b1 r1 g1 s1
  dsimp only
  rw [header_shift, header_and, Co.wp_bind, show (Block.fixed toks).kind = 1 from rfl]
  unfold inflateBlock
  rw [if_neg (by omega), if_neg (by omega), if_pos rfl, staticDist_eq, staticLit_eq, Co.wp_bind]
  apply wp_coTable fixedDist_ok
  intro t1 ht1
  rw [Co.wp_bind]
  apply wp_coTable fixedLit_ok
  intro t0 ht0
  apply wp_symLoop fixedLit_ok ht0 fixedDist_ok ht1 fixedLit_256 (toks := toks) (R := R) (out := out) ?_ _
    (hist := []) ⟨g1, by rw [s1]; simp only [Block.body, List.append_assoc], hok, he, hw⟩ hf
  intro b' rest' hist' c' _ s2 e
  rw [if_neg (by simp)]
  exact ⟨e, by rw [← s2, strm_length]; omega⟩

/-- A final block with dynamic codes. -/
theorem wp_dynamic {W : Nat → Nat → Prop} {z out : Bytes} {D : Dyn} {toks : List Tok} {R : List Bool} {fuel : Nat}
    (hz : Spec.bits z = (Block.dynamic D toks).bits true ++ R) (hD : D.Ok) (hok : ∀ t ∈ toks, t.Ok D.lit D.dist)
    (he : expandToks [] toks = some out)
    (hw : WaitsOk W D.lit D.dist (huff D.lit 256 ++ R).length [] toks) (hf : toks.length < fuel) :
    (tinfl false fuel).wp W (AllOut out R.length) z [] 0 := by
  obtain ⟨F, rfl⟩ : ∃ F, fuel = F + 1 := ⟨fuel - 1, by omega⟩
  unfold tinfl
  rw [blockLoop, Co.wp_bind]
  rw [Block.bits_eq, List.append_assoc] at hz
  apply wp_getBits (v := true.toNat + 2 * (Block.dynamic D toks).kind) ⟨by simp [BitBuf.Ok], by simp⟩
    ((strm_zero rfl z).trans hz) (by simp [Block.kind]) (by omega)
  intro b1 r1 g1 s1
  dsimp only
  rw [header_shift, header_and, Co.wp_bind, show (Block.dynamic D toks).kind = 2 from rfl]
  unfold inflateBlock
  rw [if_neg (by omega), if_neg (by omega), if_neg (by omega), Co.wp_bind]
  obtain ⟨-, -, -, -, -, -, -, -, -, -, -, -, d13, d14, d15⟩ := id hD
  have hlen := hD
  unfold Dyn.Ok at hlen
  apply wp_dynamicTables hD (R := toks.flatMap (Tok.bits D.lit D.dist) ++ (huff D.lit 256 ++ R)) g1
    (by rw [s1]; simp only [Block.body, List.append_assoc])
  intro t0 t1 b2 r2 ht0 ht1 g2 s2
  dsimp only
  apply wp_symLoop ⟨d13.1, d13.2, by omega⟩ ht0 ⟨d14.1, d14.2, by omega⟩ ht1 d15 (toks := toks) (R := R) (out := out) ?_ _
    (hist := []) ⟨g2, s2, hok, he, hw⟩ hf
  intro b' rest' hist' c' _ s2 e
  rw [if_neg (by simp)]
  exact ⟨e, by rw [← s2, strm_length]; omega⟩

/-- The waits of a sequence whose last token crosses the boundary, with fewer than 8 bits after it. -/
theorem waitsOk_stall {lit dist : List Nat} {L : Nat} {last : Tok} (hL : L < 8) {pre : List Tok} :
    ∀ {o o1 : List UInt8}, expandToks o pre = some o1 → o1.length ≤ 32768 → WaitsOk Stall lit dist L o (pre ++ [last]) := by
  induction pre with
  | nil =>
    intro o o1 he h1
    refine ⟨fun o' _ h _ _ r hr _ _ => ?_, fun _ _ => trivial⟩
    simp only [List.flatMap_nil, List.length_nil] at hr
    omega
  | cons t ts ih =>
    intro o o1 he h1
    obtain ⟨o2, e1, e2⟩ := expandToks_cons he
    have hle := expandToks_length_le e2
    constructor
    · intro o' e h ha hb r _ _ h3
      rw [e1] at e
      cases e
      omega
    · intro o' e
      rw [e1] at e
      cases e
      exact ih e2 h1

/-! ### Output without end -/

theorem BitBuf.drop_zero (b : BitBuf) : b.drop 0 = b := rfl

section
variable {t0 t1 : HuffTable} {b : BitBuf} {k : BitBuf → Co Unit} {inp : Bytes}

/-- The suspended coroutine on its endless way. -/
def Endless (t : TState) : Prop := ∃ (t0 t1 : HuffTable) (b : BitBuf) (k : BitBuf → Co Unit) (f : Nat),
  t0.lookAt b.buf = 0 ∧ 30 ≤ b.num ∧ 4 ≤ t.inp.length ∧ t.co = .waitOut (.put 0 (symLoop false t0 t1 f b >>= k))

/-- The call does not come to an end, or only with a full buffer and more to write. -/
def Loops (co : Co Unit) (inp hist : Bytes) (room : Nat) : Prop :=
  ∃ t, co.resume inp hist room = (.diverge, t) ∨
    (co.resume inp hist room = (.hasMoreOutput, t) ∧ t.hist.length = hist.length + room ∧ t.room = 0 ∧ Endless t)

theorem decodeRaw_none (h : t0.lookAt b.buf = 0) : decodeRaw t0 b.buf = (0, 0) := by
  unfold decodeRaw
  rw [h]
  rfl

theorem huffDecode_none (h : t0.lookAt b.buf = 0) (hn : 15 ≤ b.num) : huffDecode t0 b = pure (0, b) := by
  unfold huffDecode huffRefill
  rw [if_neg (by omega)]
  show Co.bind (Co.pure b) _ = _
  rw [Co.bind]
  rw [decodeRaw_none h]
  rfl

theorem loops_sym (h : t0.lookAt b.buf = 0) (hn : 30 ≤ b.num) (hi : 4 ≤ inp.length) (f : Nat) :
    ∀ {hist : Bytes} {room : Nat}, Loops (symLoop false t0 t1 f b >>= k) inp hist room := by
  induction f with
  | zero => intro hist room; exact ⟨_, Or.inl rfl⟩
  | succ f ih =>
    intro hist room
    have hstep : ∀ f, (symLoop false t0 t1 (f + 1) b >>= k).resume inp hist room =
        (if room < 2 then (Co.waitOut (.put 0 (symLoop false t0 t1 f b >>= k))).resume inp hist room
        else (Co.put 0 (.put 0 (symLoop false t0 t1 f b >>= k))).resume inp hist room) := by
      intro f
      rw [symLoop]
      show (Co.bind (Co.bind (coAvailIn) _) k).resume inp hist room = _
      simp only [coAvailIn, Co.bind, Co.resume]
      by_cases hr : room < 2
      · rw [if_pos hr]
        show (Co.bind (Co.bind (coAvailOut) _) k).resume inp hist room = _
        simp only [coAvailOut, Co.bind, Co.resume]
        rw [if_pos (Or.inr hr), huffDecode_none h (by omega)]
        rfl
      · rw [if_neg hr]
        show (Co.bind (Co.bind (coAvailOut) _) k).resume inp hist room = _
        simp only [coAvailOut, Co.bind, Co.resume]
        rw [if_neg (by omega)]
        have hre : refill4 false b = pure b := by unfold refill4; rw [if_neg (by omega)]
        rw [hre]
        show (Co.bind (Co.bind (Co.pure b) _) k).resume inp hist room = _
        rw [Co.bind]
        simp only [decodeRaw_none h, BitBuf.drop_zero]
        rfl
    unfold Loops
    rw [hstep]
    match room with
    | 0 =>
      rw [if_pos (by omega)]
      exact ⟨_, Or.inr ⟨rfl, rfl, rfl, t0, t1, b, k, f, h, hn, hi, rfl⟩⟩
    | 1 =>
      rw [if_pos (by omega)]
      show ∃ t, (symLoop false t0 t1 f b >>= k).resume inp (0 :: hist) 0 = _ ∨ _
      obtain ⟨t, ht⟩ := ih (hist := 0 :: hist) (room := 0)
      refine ⟨t, ht.imp id fun ⟨e1, e2, e3, e4⟩ => ⟨e1, ?_, e3, e4⟩⟩
      rw [e2, List.length_cons]
    | room + 2 =>
      rw [if_neg (by omega)]
      show ∃ t, (symLoop false t0 t1 f b >>= k).resume inp (0 :: 0 :: hist) room = _ ∨ _
      obtain ⟨t, ht⟩ := ih (hist := 0 :: 0 :: hist) (room := room)
      refine ⟨t, ht.imp id fun ⟨e1, e2, e3, e4⟩ => ⟨e1, ?_, e3, e4⟩⟩
      rw [e2]; simp only [List.length_cons]; omega

theorem Endless.loops {t : TState} (h : Endless t) (hist : Bytes) : Loops t.co t.inp hist 32768 := by
  obtain ⟨t0, t1, b, k, f, h1, h2, h3, h4⟩ := h
  rw [h4]
  obtain ⟨t', ht⟩ := loops_sym (t1 := t1) (k := k) h1 h2 h3 f (hist := 0 :: hist) (room := 32767)
  refine ⟨t', ht.imp id fun ⟨e1, e2, e3, e4⟩ => ⟨e1, ?_, e3, e4⟩⟩
  rw [e2, List.length_cons]

/-- The state of `mz_inflate` in that case. -/
structure LoopState (s : InflateState) : Prop where
  loops : Loops s.co s.inp s.hist 32768
  ofs : s.dictOfs = 0
  avail : s.dictAvail = 0
  status : s.lastStatus ≠ .failed

theorem mzLoop_endless (orig f : Nat) : ∀ {s : InflateState}, LoopState s → 32768 ∣ s.availOut → s.availOut ≠ 0 →
    (∃ s', mzInflateLoop orig f s = (.error .diverge, s')) ∨
    (∃ s', mzInflateLoop orig f s = (.ok .ok, s') ∧ LoopState s' ∧ s'.availOut = 0) := by
  induction f with
  | zero => intro s _ _ _; exact Or.inl ⟨s, rfl⟩
  | succ f ih =>
    intro s hs hd h0
    obtain ⟨t, ht⟩ := hs.loops
    rcases ht with ht | ⟨ht, e1, e2, e3⟩
    · have hres : s.co.resume s.inp s.hist (32768 - s.dictOfs) = (.diverge, t) := by rw [hs.ofs]; exact ht
      rw [mzLoop_step hres]
      exact Or.inl ⟨_, rfl⟩
    · have hres : s.co.resume s.inp s.hist (32768 - s.dictOfs) = (.hasMoreOutput, t) := by rw [hs.ofs]; exact ht
      rw [mzLoop_step hres]
      obtain ⟨q, hq⟩ := hd
      have hq0 : q ≠ 0 := by rintro rfl; omega
      have hF := flush_all (s := afterResume s .hasMoreOutput t)
        (by show 32768 - s.dictOfs - t.room ≤ s.availOut; rw [hs.ofs, e2]; omega)
      generalize hs2 : (afterResume s .hasMoreOutput t).flush = s2 at hF
      have b1 : s2.inp = t.inp := by rw [hF]; rfl
      have b2 : s2.availOut = s.availOut - 32768 := by rw [hF]; simp [afterResume, hs.ofs, e2]
      have b3 : s2.dictAvail = 0 := by rw [hF]
      have b4 : s2.dictOfs = 0 := by rw [hF]; simp [afterResume, hs.ofs, e2]
      have b5 : s2.co = t.co := by rw [hF]; rfl
      have b6 : s2.lastStatus = .hasMoreOutput := by rw [hF]; rfl
      have hne : t.inp ≠ [] := by
        obtain ⟨_, _, _, _, _, _, _, h, _⟩ := e3
        intro h'; rw [h'] at h; simp at h
      have hs2 : LoopState s2 := ⟨by rw [b5, b1]; exact e3.loops _, b4, b3, by rw [b6]; simp⟩
      dsimp only [mzCont]
      rw [if_neg (by simp)]
      by_cases ha : s2.availOut = 0
      · rw [if_pos (Or.inr (Or.inr (Or.inl ha))), if_neg (by simp)]
        exact Or.inr ⟨s2, rfl, hs2, ha⟩
      · rw [if_neg (by simp [ha, b3, b1, hne])]
        exact ih hs2 ⟨q - 1, by rw [b2, hq]; omega⟩ ha

theorem inner_endless (F f : Nat) : ∀ {s : InflateState} {output : Bytes}, LoopState s →
    npyInflateInner F f s output = .error .diverge := by
  induction f with
  | zero => intro s output _; rfl
  | succ f ih =>
    intro s output hs
    rw [npyInflateInner]
    have hs1 : LoopState { s with availOut := CHUNK, out := [] } := ⟨hs.loops, hs.ofs, hs.avail, hs.status⟩
    unfold mzInflate
    dsimp only
    rw [if_neg hs.status, if_neg (by simpa using hs.avail)]
    rcases mzLoop_endless s.inp.length F hs1 ⟨32, rfl⟩ (by simp [CHUNK]) with ⟨s', h⟩ | ⟨s', h, h1, h2⟩
    · rw [h]
    · rw [h]
      dsimp only
      rw [if_pos h2]
      exact ih h1

theorem npyInflate_endless {z : Bytes} {fuel : Nat} (hz : z ≠ []) (hl : z.length ≤ CHUNK)
    (h : Loops (tinfl false fuel) z [] 32768) : npyInflate false fuel z = .error .diverge := by
  obtain ⟨input', h1, h2, h3⟩ := StreamAt.read (input := IStream.ofBytes z) (later := z) (Or.inl ⟨rfl, rfl⟩)
  rw [List.take_of_length_le hl] at h1
  unfold npyInflate
  match fuel with
  | 0 => rfl
  | F + 1 =>
    rw [npyInflateOuter, h1]
    dsimp only
    rw [if_neg (by rw [h3]; simp), if_neg hz]
    rw [inner_endless (F + 1) (F + 1) ⟨h, rfl, rfl, by simp [inflateInit]⟩]

end

/-- A table has no entry for bits that no code begins with. -/
theorem TableOf.lookAt_none {lens : List Nat} {t : HuffTable} (hT : TableOf lens t) {buf : Nat}
    (h10 : ∀ s, lenOf lens s ≤ 10) (h : ∀ s, lenOf lens s ≠ 0 → ¬ huff lens s <+: lsb 10 buf) : t.lookAt buf = 0 := by
  obtain ⟨N, own, hT⟩ := hT
  rw [lookAt_eq]
  have hlt : buf % 1024 < 1024 := Nat.mod_lt _ (by omega)
  rcases Int.lt_trichotomy (t.look.getD (buf % 1024) 0) 0 with h1 | h1 | h1
  · obtain ⟨k, hk, _, _⟩ := hT.lookNeg _ hlt h1
    obtain ⟨h2, s, h3, _, h4⟩ := hT.ownPre k hk
    have := h10 s
    omega
  · exact h1
  · obtain ⟨s, _, h2, _, _, h3⟩ := hT.lookPos _ hlt h1
    rw [lsb10_mod] at h3
    exact absurd h3 (h s h2)

end Npy
