import Verif.Spec.DeflateBad
import Verif.Proofs.InflateDrive
/-!
# Data that are seen to be invalid

`Co.fl N co rest hist c`: run on the bytes `rest`, however they are cut into buffers, the coroutine stops with the status
"failed" when at most `N` bytes are written.
-/

set_option maxRecDepth 8000

namespace Npy
open Spec.Deflate

def Co.fl {α : Type} (N : Nat) : Co α → Bytes → Bytes → Nat → Prop
  | .pure _, _, _, _ => False
  | .stop r, _, hist, _ => r = .failed ∧ hist.length ≤ N
  | .getByte k, rest, hist, c =>
    match rest with
    | [] => False
    | b :: bs => (k b).fl N bs hist c
  | .availIn k, rest, hist, c => ∀ n ≤ rest.length, (k n).fl N rest hist c
  | .availOut k, rest, hist, c => ∀ m, c ≤ m → (k m).fl N rest hist m
  | .waitOut k, rest, hist, c => hist.length < N ∧ k.fl N rest hist (max c 1)
  | .put b k, rest, hist, c => 0 < c ∧ hist.length < N ∧ k.fl N rest (b :: hist) (c - 1)
  | .putBack d k, rest, hist, c =>
    0 < c ∧ hist.length < N ∧ ∃ b, hist[(d + 32767) % 32768]? = some b ∧ k.fl N rest (b :: hist) (c - 1)

/-- A part that finishes, then a part that fails. -/
theorem Co.fl_bind {α β : Type} {N : Nat} {W : Nat → Nat → Prop} (hW : ∀ h r, W h r → h < N) (x : Co α) (f : α → Co β)
    {rest hist : Bytes} {c : Nat} (h : x.wp W (fun a r h c => (f a).fl N r h c) rest hist c) :
    (x >>= f).fl N rest hist c := by
  show (Co.bind x f).fl N rest hist c
  induction x generalizing rest hist c with
  | pure a => exact h
  | stop r => exact absurd h id
  | getByte k ih =>
    match rest, h with
    | [], h => exact h
    | b :: bs, h => exact ih b h
  | availIn k ih => exact fun n hn => ih n (h n hn)
  | availOut k ih => exact fun n hn => ih n (h n hn)
  | waitOut k ih => exact ⟨hW _ _ h.1, ih h.2⟩
  | put b k ih => exact ⟨h.1, hW _ _ h.2.1, ih h.2.2⟩
  | putBack d k ih => exact ⟨h.1, hW _ _ h.2.1, h.2.2.choose, h.2.2.choose_spec.1, ih h.2.2.choose_spec.2⟩

/-- A part that fails. -/
theorem Co.fl_first {α β : Type} {N : Nat} (x : Co α) (f : α → Co β) {rest hist : Bytes} {c : Nat}
    (h : x.fl N rest hist c) : (x >>= f).fl N rest hist c := by
  show (Co.bind x f).fl N rest hist c
  induction x generalizing rest hist c with
  | pure a => exact absurd h id
  | stop r => exact h
  | getByte k ih =>
    match rest, h with
    | [], h => exact h
    | b :: bs, h => exact ih b h
  | availIn k ih => exact fun n hn => ih n (h n hn)
  | availOut k ih => exact fun n hn => ih n (h n hn)
  | waitOut k ih => exact ⟨h.1, ih h.2⟩
  | put b k ih => exact ⟨h.1, h.2.1, ih h.2.2⟩
  | putBack d k ih => exact ⟨h.1, h.2.1, h.2.2.choose, h.2.2.choose_spec.1, ih h.2.2.choose_spec.2⟩

theorem Co.fl_hist_le {α : Type} {N : Nat} (co : Co α) : ∀ {rest hist : Bytes} {c : Nat}, co.fl N rest hist c → hist.length ≤ N := by
  induction co with
  | pure a => intro rest hist c h; exact absurd h id
  | stop r => intro rest hist c h; exact h.2
  | getByte k ih =>
    intro rest hist c h
    match rest, h with
    | [], h => exact absurd h id
    | x :: xs, h => exact ih x h
  | availIn k ih => intro rest hist c h; exact ih 0 (h 0 (Nat.zero_le _))
  | availOut k ih => intro rest hist c h; exact ih c (h c (Nat.le_refl _))
  | waitOut k ih => intro rest hist c h; exact ih h.2
  | put b k ih => intro rest hist c h; have := ih h.2.2; rw [List.length_cons] at this; omega
  | putBack d k ih =>
    intro rest hist c h
    obtain ⟨_, _, b, _, hk⟩ := h
    have := ih hk
    rw [List.length_cons] at this
    omega

/-! ### One call of the decompressor -/

structure ResumedFl (N : Nat) (inp later hist : Bytes) (room : Nat) (st : TStatus) (t : TState) : Prop where
  len : t.hist.length + t.room = hist.length + room
  room : t.room ≤ room
  new : ∃ new, t.hist = new ++ hist
  cases : st = .failed ∨
    (st = .needsMoreInput ∧ t.inp = [] ∧ later ≠ [] ∧ ∃ c' ≤ t.room, t.co.fl N later t.hist c') ∨
    (st = .hasMoreOutput ∧ t.room = 0 ∧ t.hist.length < N ∧ t.co.fl N (t.inp ++ later) t.hist 0)

theorem ResumedFl.step {N : Nat} {inp later hist : Bytes} {room : Nat} {b : UInt8} {st : TStatus} {t : TState}
    (h : ResumedFl N inp later (b :: hist) room st t) : ResumedFl N inp later hist (room + 1) st t := by
  obtain ⟨h1, h2, ⟨new, h3⟩, h6⟩ := h
  exact ⟨by rw [h1, List.length_cons]; omega, by omega, ⟨new ++ [b], by rw [h3]; simp⟩, h6⟩

theorem Co.resume_fl {N : Nat} {later : Bytes} (co : Co Unit) : ∀ {inp hist : Bytes} {c room : Nat},
    co.fl N (inp ++ later) hist c → c ≤ room →
    ∃ st t, co.resume inp hist room = (st, t) ∧ ResumedFl N inp later hist room st t := by
  induction co with
  | pure a => intro inp hist c room h hc; exact absurd h id
  | stop r =>
    intro inp hist c room h hc
    obtain ⟨rfl, h2⟩ := h
    exact ⟨_, _, rfl, rfl, Nat.le_refl _, ⟨[], rfl⟩, Or.inl rfl⟩
  | getByte k ih =>
    intro inp hist c room h hc
    match inp, h with
    | [], h =>
      refine ⟨_, _, rfl, rfl, Nat.le_refl _, ⟨[], rfl⟩, Or.inr (Or.inl ⟨rfl, rfl, ?_, c, hc, h⟩)⟩
      rintro rfl
      exact h
    | x :: xs, h =>
      obtain ⟨st, t, h1, h2⟩ := ih x h hc
      exact ⟨st, t, h1, h2.len, h2.room, h2.new, h2.cases⟩
  | availIn k ih =>
    intro inp hist c room h hc
    exact ih inp.length (h inp.length (by rw [List.length_append]; omega)) hc
  | availOut k ih =>
    intro inp hist c room h hc
    exact ih room (h room hc) (Nat.le_refl _)
  | waitOut k ih =>
    intro inp hist c room h hc
    match room, hc with
    | 0, hc =>
      have : c = 0 := by omega
      subst this
      exact ⟨_, _, rfl, rfl, Nat.le_refl _, ⟨[], rfl⟩, Or.inr (Or.inr ⟨rfl, rfl, h.1, h⟩)⟩
    | room + 1, hc => exact ih h.2 (by omega)
  | put b k ih =>
    intro inp hist c room h hc
    have h0 := h.1
    match room, hc with
    | 0, hc => omega
    | room + 1, hc =>
      obtain ⟨st, t, h1, h2⟩ := ih (room := room) h.2.2 (by omega)
      exact ⟨st, t, h1, h2.step⟩
  | putBack d k ih =>
    intro inp hist c room h hc
    obtain ⟨h0, hW, b, hb, hk⟩ := h
    match room, hc with
    | 0, hc => omega
    | room + 1, hc =>
      obtain ⟨st, t, h1, h2⟩ := ih (room := room) hk (by omega)
      refine ⟨st, t, ?_, h2.step⟩
      rw [Co.resume, hb]
      exact h1

/-! ### The loops -/

variable {N : Nat} {later : Bytes}

/-- The decompressor is on its way to failing. -/
structure RunFl (N : Nat) (later : Bytes) (s : InflateState) : Prop where
  fl : ∃ c ≤ 32768 - s.dictOfs, s.co.fl N (s.inp ++ later) s.hist c
  ofs : s.hist.length % 32768 = s.dictOfs
  avail : s.dictAvail = 0
  status : s.lastStatus ≠ .failed

theorem RunFl.hist_le {s : InflateState} (h : RunFl N later s) : s.hist.length ≤ N := by
  obtain ⟨c, _, hw⟩ := h.fl
  exact Co.fl_hist_le _ hw

def FitsN (N : Nat) (s : InflateState) : Prop :=
  (s.dictOfs = 0 ∧ 32768 ∣ s.availOut) ∨ (N ≤ CHUNK ∧ N ≤ s.hist.length + s.availOut)

/-- How a call of `mz_inflate` ends. -/
def MzFl (N : Nat) (later : Bytes) (s : InflateState) (ret : MzRet) (s' : InflateState) : Prop :=
  ret = .dataError ∨
  (s'.hist.length + s'.availOut = s.hist.length + s.availOut ∧
    (ret = .ok ∨ ret = .bufError) ∧ RunFl N later s' ∧ (s'.inp = [] ∨ s'.availOut = 0) ∧ (s'.inp = [] → s'.availOut ≠ 0 → True) ∧
    ((s'.availOut = 0 → s'.dictOfs = 0) ∨ N ≤ CHUNK))

theorem mzLoop_fl (orig : Nat) (f : Nat) : ∀ {s : InflateState}, RunFl N later s → FitsN N s → s.availOut ≠ 0 →
    N < f + s.hist.length → ∃ ret s', mzInflateLoop orig f s = (.ok ret, s') ∧ MzFl N later s ret s' := by
  induction f with
  | zero => intro s hr _ _ hf; have := hr.hist_le; omega
  | succ f ih =>
    intro s hr hfit hav hf
    obtain ⟨c, hc, hw⟩ := hr.fl
    obtain ⟨st, t, hres, R⟩ := Co.resume_fl s.co hw hc
    have hstep := mzLoop_step (orig := orig) (f := f) hres
    rcases R.cases with rfl | hcont
    · rw [hstep]
      exact ⟨_, _, rfl, Or.inl rfl⟩
    have hofs := hr.ofs
    have hofs2 : s.dictOfs < 32768 := by rw [← hofs]; exact Nat.mod_lt _ (by omega)
    have hlen := R.len
    have hroom := R.room
    obtain ⟨new, hnew⟩ := R.new
    have hnl := congrArg List.length hnew
    rw [List.length_append] at hnl
    have hle : t.hist.length ≤ N := by
      rcases hcont with ⟨_, _, _, c', _, h⟩ | ⟨_, _, h, _⟩
      · exact Co.fl_hist_le _ h
      · omega
    have hfl : 32768 - s.dictOfs - t.room ≤ s.availOut := by
      rcases hfit with ⟨h2, k, hk⟩ | ⟨_, h⟩
      · have : k ≠ 0 := by rintro rfl; exact hav hk
        clear hcont
        omega
      · clear hcont; omega
    have hF := flush_all (s := afterResume s st t) hfl
    have hda : 32768 - s.dictOfs - t.room = new.length := by clear hcont; omega
    generalize hs' : (afterResume s st t).flush = s' at hF
    rw [hs'] at hstep
    have e_co : s'.co = t.co := by rw [hF]; rfl
    have e_inp : s'.inp = t.inp := by rw [hF]; rfl
    have e_hist : s'.hist = t.hist := by rw [hF]; rfl
    have e_st : s'.lastStatus = st := by rw [hF]; rfl
    have e_da : s'.dictAvail = 0 := by rw [hF]
    have e_ofs : s'.dictOfs = t.hist.length % 32768 := by
      have : s'.dictOfs = (s.dictOfs + (32768 - s.dictOfs - t.room)) % 32768 := by rw [hF]; rfl
      rw [this, hda, hnl, ← hofs]; omega
    have e_av : s'.availOut = s.availOut - new.length := by
      have : s'.availOut = s.availOut - (32768 - s.dictOfs - t.room) := by rw [hF]; rfl
      rw [this, hda]
    have e_len : s'.hist.length + s'.availOut = s.hist.length + s.availOut := by rw [e_hist, e_av]; omega
    rcases hcont with ⟨rfl, h2, h3, c', h4, h5⟩ | ⟨rfl, h2, h34, h5⟩
    · have hrun : RunFl N later s' := by
        refine ⟨⟨c', ?_, ?_⟩, by rw [e_hist, e_ofs], e_da, by rw [e_st]; simp⟩
        · rw [e_ofs]; omega
        · rw [e_co, e_inp, h2, e_hist]; exact h5
      have hG : (s'.availOut = 0 → s'.dictOfs = 0) ∨ N ≤ CHUNK := by
        rcases hfit with ⟨g2, ⟨k, hk⟩⟩ | ⟨h, _⟩
        · refine Or.inl fun h0 => ?_
          rw [e_av] at h0
          have : k ≠ 0 := by rintro rfl; omega
          rw [e_ofs]; omega
        · exact Or.inr h
      have hfin : ∀ ret, (ret = .ok ∨ ret = .bufError) → MzFl N later s ret s' := fun ret hret =>
        Or.inr ⟨e_len, hret, hrun, Or.inl (by rw [e_inp, h2]), fun _ _ => trivial, hG⟩
      rw [hstep]
      dsimp only [mzCont]
      by_cases ho : orig = 0
      · rw [if_pos ⟨rfl, ho⟩]
        exact ⟨_, _, rfl, hfin _ (Or.inr rfl)⟩
      · rw [if_neg (by simp [ho]), if_pos (Or.inr (Or.inl (by rw [e_inp, h2]))), if_neg (by simp)]
        exact ⟨_, _, rfl, hfin _ (Or.inl rfl)⟩
    · have hmod : t.hist.length % 32768 = 0 := by omega
      have hpos : s.hist.length < t.hist.length := by omega
      have h0 : s'.dictOfs = 0 := by rw [e_ofs, hmod]
      have hrun : RunFl N later s' := by
        refine ⟨⟨0, Nat.zero_le _, ?_⟩, by rw [e_hist, e_ofs], e_da, by rw [e_st]; simp⟩
        rw [e_co, e_inp, e_hist]; exact h5
      have hG : (s'.availOut = 0 → s'.dictOfs = 0) ∨ N ≤ CHUNK := Or.inl fun _ => h0
      rw [hstep]
      dsimp only [mzCont]
      rw [if_neg (by simp)]
      by_cases hstop : s'.inp = [] ∨ s'.availOut = 0
      · rw [if_pos (by rcases hstop with h | h <;> simp [h]), if_neg (by simp)]
        exact ⟨_, _, rfl, Or.inr ⟨e_len, Or.inl rfl, hrun, hstop, fun _ _ => trivial, hG⟩⟩
      · rw [if_neg (by simp only [e_da]; simpa using hstop)]
        have hfit' : FitsN N s' := by
          rcases hfit with ⟨g2, g3⟩ | ⟨g1, g2⟩
          · exact Or.inl ⟨h0, by rw [e_av, ← hda, g2, h2]; exact Nat.dvd_sub g3 (Nat.dvd_refl _)⟩
          · exact Or.inr ⟨g1, by rw [e_len]; exact g2⟩
        obtain ⟨ret, s2, i1, i2⟩ := ih hrun hfit' (by intro h; exact hstop (Or.inr h)) (by rw [e_hist]; omega)
        refine ⟨ret, s2, i1, i2.imp id fun i2 => ⟨by rw [i2.1, e_len], i2.2⟩⟩

theorem inner_fl {F : Nat} (hF : N < F) (f : Nat) : ∀ {s : InflateState} {output : Bytes},
    RunFl N later s → (s.dictOfs = 0 ∨ N ≤ CHUNK) → N + 1 < f + s.hist.length →
    npyInflateInner F f s output = .error (.throw (.runtimeError .inflateError)) ∨
    ∃ ret s' output', npyInflateInner F f s output = .ok (ret, s', output') ∧ ret ≠ .streamEnd ∧ RunFl N later s' ∧
      s'.inp = [] := by
  induction f with
  | zero => intro s output hr _ hf; have := hr.hist_le; omega
  | succ f ih =>
    intro s output hr hG hf
    have hC : CHUNK = 1048576 := rfl
    have hr' : RunFl N later (fresh s) := ⟨hr.fl, hr.ofs, hr.avail, hr.status⟩
    have hfit : FitsN N (fresh s) := by
      rcases hG with h2 | h
      · exact Or.inl ⟨h2, ⟨32, rfl⟩⟩
      · exact Or.inr ⟨h, by show N ≤ s.hist.length + CHUNK; omega⟩
    have hm : ∃ ret s', mzInflate F (fresh s) = (.ok ret, s') ∧ MzFl N later (fresh s) ret s' := by
      unfold mzInflate
      rw [if_neg hr'.status, if_neg (by simpa using hr'.avail)]
      exact mzLoop_fl _ F hr' hfit (by simp [fresh, CHUNK]) (by omega)
    obtain ⟨ret, s', h1, h2⟩ := hm
    have h1' : mzInflate F { s with availOut := CHUNK, out := [] } = (.ok ret, s') := h1
    rw [npyInflateInner, h1']
    rcases h2 with rfl | ⟨hlen, hret, hrun, hstop, -, hG'⟩
    · exact Or.inl rfl
    · have hlen : s'.hist.length + s'.availOut = s.hist.length + CHUNK := hlen
      have hne : ret ≠ .streamEnd := by rcases hret with rfl | rfl <;> simp
      have hgo : (if s'.availOut = 0 then npyInflateInner F f s' (output ++ s'.out)
          else .ok (ret, s', output ++ s'.out)) = .error (.throw (.runtimeError .inflateError)) ∨
          ∃ r s'' output', (if s'.availOut = 0 then npyInflateInner F f s' (output ++ s'.out)
          else .ok (ret, s', output ++ s'.out)) = .ok (r, s'', output') ∧ r ≠ .streamEnd ∧ RunFl N later s'' ∧ s''.inp = [] := by
        by_cases ha : s'.availOut = 0
        · rw [if_pos ha]
          exact ih hrun (hG'.imp (fun h => h ha) id) (by omega)
        · rw [if_neg ha]
          exact Or.inr ⟨_, _, _, rfl, hne, hrun, hstop.resolve_right ha⟩
      rcases hret with rfl | rfl <;> exact hgo

theorem outer_fl {F : Nat} (hF : N + 1 < F) (f : Nat) : ∀ {later : Bytes} {s : InflateState} {input : IStream}
    {output : Bytes}, RunFl N later { s with inp := [] } →
    (later = [] ∨ (later.drop CHUNK = [] ∧ s.dictOfs = 0) ∨ N ≤ CHUNK) → StreamAt input later → later.length < f →
    npyInflateOuter F f s input output = .error (.throw (.runtimeError .inflateError)) := by
  induction f with
  | zero => intro later s input output _ _ _ hf; omega
  | succ f ih =>
    intro later s input output hr hG hi hf
    obtain ⟨input', h1, h2, h3⟩ := hi.read
    rw [npyInflateOuter, h1]
    dsimp only
    rw [if_neg (by rw [h3]; simp)]
    have hC : CHUNK = 1048576 := rfl
    by_cases hl : later = []
    · rw [if_pos (by rw [hl]; rfl)]
    · have hlen : later.length ≠ 0 := by simpa using hl
      rw [if_neg (by intro h; have := congrArg List.length h; rw [List.length_take, List.length_nil] at this; omega)]
      have hr2 : RunFl N (later.drop CHUNK) { s with inp := later.take CHUNK } := by
        refine ⟨?_, hr.ofs, hr.avail, hr.status⟩
        obtain ⟨c, hc, hw⟩ := hr.fl
        refine ⟨c, hc, ?_⟩
        show s.co.fl N (later.take CHUNK ++ later.drop CHUNK) s.hist c
        rw [List.take_append_drop]
        exact hw
      rcases inner_fl (F := F) (by omega) F hr2 ((hG.resolve_left hl).imp And.right id) (output := output) (by omega) with
        j | ⟨ret, s', output', j1, j3, j4, j5⟩
      · rw [j]
      · rw [j1]
        dsimp only
        rw [if_neg j3]
        have hs' : { s' with inp := [] } = s' := by rw [← j5]
        apply ih (later := later.drop CHUNK) (by rw [hs']; exact j4) ?_ h2 (by rw [List.length_drop]; omega)
        rcases hG with k | ⟨k, _⟩ | k
        · exact absurd k hl
        · exact Or.inl k
        · exact Or.inr (Or.inr k)

theorem npyInflate_fl {z : Bytes} {fuel : Nat} (h : (tinfl false fuel).fl N z [] 0) (hsize : z.length ≤ CHUNK ∨ N ≤ CHUNK)
    (hf : z.length + N + 1 < fuel) : npyInflate false fuel z = .error (.throw (.runtimeError .inflateError)) := by
  apply outer_fl (N := N) (by omega) fuel (later := z)
  · exact ⟨⟨0, Nat.zero_le _, h⟩, rfl, rfl, by simp [inflateInit]⟩
  · rcases hsize with h | h
    · exact Or.inr (Or.inl ⟨List.drop_eq_nil_of_le h, rfl⟩)
    · exact Or.inr (Or.inr h)
  · exact Or.inl ⟨rfl, rfl⟩
  · omega

/-! ### Bad blocks -/

theorem buildTable_bad {lens : List Nat} (h15 : ∀ l ∈ lens, l ≤ 15) (h : ¬Usable lens) : buildTable lens = none := by
  have hc : ¬Complete lens ∧ 1 < used lens := by
    constructor
    · exact fun hc => h ⟨h15, Or.inl hc⟩
    · exact Nat.lt_of_not_le fun hu => h ⟨h15, Or.inr hu⟩
  unfold buildTable
  obtain ⟨-, h2, -⟩ := nextCodes_fst lens 15 1 (by omega)
  have hf1 : firstCode lens 1 = 0 := by simp [firstCode, blCount]
  rw [hf1] at h2
  generalize he : nextCodes lens 15 1 0 = r at h2 ⊢
  obtain ⟨l, total⟩ := r
  dsimp only at h2 ⊢
  rw [if_pos]
  rw [h2]
  exact ⟨fun hk => hc.1 ((complete_iff h15).2 hk), hc.2⟩

section
variable {hist : Bytes} {c : Nat}

theorem fl_coTable {lens : List Nat} (h15 : ∀ l ∈ lens, l ≤ 15) (h : ¬Usable lens) (hN : hist.length ≤ N) {rest : Bytes} :
    (coTable lens).fl N rest hist c := by
  unfold coTable
  rw [buildTable_bad h15 h]
  exact ⟨rfl, hN⟩

/-- Nothing is written. -/
def Still (N : Nat) (h _r : Nat) : Prop := h < N

theorem still {h r : Nat} (hh : Still N h r) : h < N := hh

theorem fl_storedBlock {pad : List Bool} {len nlen : Nat} {b : BitBuf} {rest : Bytes} {R : List Bool} (hb : b.Good)
    (hs : strm b rest = pad ++ (lsb 16 len ++ (lsb 16 nlen ++ R))) (hpad : b.num % 8 = pad.length) (h1 : len < 2 ^ 16)
    (h2 : nlen < 2 ^ 16) (hbad : len + nlen ≠ 2 ^ 16 - 1) (hN : hist.length ≤ N) : (storedBlock b).fl N rest hist c := by
  have hand : b.num &&& 7 = pad.length := by
    rw [show (7 : Nat) = 2 ^ 3 - 1 from rfl, Nat.and_two_pow_sub_one_eq_mod]; exact hpad
  have hle : pad.length ≤ b.num := by omega
  have hs1 := strm_drop hs hle
  have hb1 : (b.drop pad.length).Good := ⟨hb.1.drop hle, by rw [BitBuf.drop_num]; have := hb.2; omega⟩
  unfold storedBlock
  rw [hand]
  rw [lsb16, lsb16 (n := nlen)] at hs1
  simp only [List.append_assoc] at hs1
  dsimp only
  apply Co.fl_bind (W := Still N) (fun _ _ => still)
  apply wp_rawByte hb1 hs1 (by omega)
  intro b2 r2 g2 s2
  dsimp only
  apply Co.fl_bind (W := Still N) (fun _ _ => still)
  apply wp_rawByte g2 s2 (by omega)
  intro b3 r3 g3 s3
  dsimp only
  apply Co.fl_bind (W := Still N) (fun _ _ => still)
  apply wp_rawByte g3 s3 (by omega)
  intro b4 r4 g4 s4
  dsimp only
  apply Co.fl_bind (W := Still N) (fun _ _ => still)
  apply wp_rawByte g4 s4 (by omega)
  intro b5 r5 g5 s5
  dsimp only
  have hne : len ≠ 0xFFFF ^^^ nlen := by
    intro h
    have := xor_ffff (n := 65535 - nlen) (by omega)
    rw [show 65535 - (65535 - nlen) = nlen by omega] at this
    omega
  rw [or_shift8, or_shift8, if_pos hne]
  exact ⟨rfl, hN⟩

theorem expandCl_snoc {ops : List ClOp} {o : ClOp} {acc lens : List Nat} (h : expandCl acc ops = some lens) :
    expandCl acc (ops ++ [o]) = expandCl lens [o] := by
  induction ops generalizing acc with
  | nil => simp only [expandCl, Option.some.injEq] at h; rw [h]; rfl
  | cons x xs ih =>
    cases x with
    | len l => exact ih (by simpa [expandCl] using h)
    | rep e =>
      rw [expandCl] at h
      rw [List.cons_append, expandCl]
      split at h
      · exact absurd h (by simp)
      · rename_i l hl
        exact ih h
    | zeros e => exact ih (by simpa [expandCl] using h)
    | manyZeros e => exact ih (by simpa [expandCl] using h)

/-- `readLens` on a sequence of code length symbols of which only the last reaches the announced number. -/
theorem wp_readLens_over {W : Nat → Nat → Prop} {cl : List Nat} {t : HuffTable} (hL : LensOk cl) (hT : TableOf cl t) {total : Nat}
    {last : ClOp} {lens res : List Nat} (hlast : last.Ok cl) (hlens : lens.length < total) (hres : total ≤ res.length)
    (hstep : expandCl lens [last] = some res) (f : Nat) :
    ∀ {ops : List ClOp} {acc : List Nat} {b : BitBuf} {rest : Bytes} {R : List Bool}, b.Good →
    strm b rest = ops.flatMap (ClOp.bits cl) ++ (ClOp.bits cl last ++ R) → (∀ o ∈ ops, o.Ok cl) →
    expandCl acc ops = some lens → total ≤ acc.length + f → ∀ {Q : Post (List Nat × BitBuf)},
    (∀ b' rest', b'.Good → strm b' rest' = R → Q (res, b') rest' hist c) →
    (readLens t total f acc b).wp W Q rest hist c := by
  have hend : ∀ (f : Nat) (b : BitBuf) (rest : Bytes) (Q : Post (List Nat × BitBuf)), Q (res, b) rest hist c →
      (readLens t total f res b).wp W Q rest hist c := by
    intro f b rest Q hQ
    cases f with
    | zero => rw [readLens, if_neg (by omega)]; exact hQ
    | succ f => rw [readLens, if_neg (by omega)]; exact hQ
  induction f with
  | zero =>
    intro ops acc b rest R hb hs hok he hf Q hQ
    have hl := expandCl_length_le he
    omega
  | succ f ih =>
    intro ops acc b rest R hb hs hok he hf Q hQ
    have hl := expandCl_length_le he
    rw [readLens, if_pos (by omega)]
    -- one symbol
    have key : ∀ (o : ClOp) (R' : List Bool) (acc' : List Nat), o.Ok cl → strm b rest = ClOp.bits cl o ++ R' →
        expandCl acc [o] = some acc' →
        (∀ b' rest', b'.Good → strm b' rest' = R' → (readLens t total f acc' b').wp W Q rest' hist c) →
        (huffDecode t b >>= fun x => (match x with
          | (d, b) => if d < 16 then readLens t total f (acc ++ [d]) b
            else if d = 16 ∧ acc.length = 0 then .stop .failed
            else (getBits ([2, 3, 7].getD (d - 16) 0) b >>= fun y => (match y with
              | (s, b) => readLens t total f (acc ++ List.replicate (s + [3, 3, 11].getD (d - 16) 0)
                  (if d = 16 then acc.getLast?.getD 0 else 0)) b)))).wp W Q rest hist c := by
      intro o R' acc' ho hs' he' hgo
      rw [Co.wp_bind]
      rw [show ClOp.bits cl o = _ from ClOp.bits.eq_def cl o, List.append_assoc] at hs'
      apply wp_huffDecode hL hT ho.1 hb hs'
      intro b' rest' g s
      cases o with
      | len l =>
        have hl15 : l ≤ 15 := ho.2
        dsimp only [ClOp.sym]
        rw [if_pos (by omega)]
        simp only [expandCl, Option.some.injEq] at he'
        rw [he']
        exact hgo b' rest' g (by simpa using s)
      | rep e =>
        have he4 : e < 4 := ho.2
        dsimp only [ClOp.sym]
        rw [expandCl] at he'
        split at he'
        · exact absurd he' (by simp)
        · rename_i l hlast
          have hne : acc.length ≠ 0 := by
            intro h0
            rw [List.eq_nil_of_length_eq_zero h0] at hlast
            simp at hlast
          simp only [expandCl, Option.some.injEq] at he'
          rw [if_neg (by omega), if_neg (by omega), Co.wp_bind]
          apply wp_getBits (v := e) g s he4 (by simp)
          intro b2 r2 g2 s2
          dsimp only
          rw [if_pos rfl, hlast]
          rw [Nat.add_comm] at he'
          rw [show acc ++ List.replicate (e + [3, 3, 11].getD (16 - 16) 0) ((some l).getD 0) = acc' from he']
          exact hgo b2 r2 g2 s2
      | zeros e =>
        have he4 : e < 8 := ho.2
        dsimp only [ClOp.sym]
        simp only [expandCl, Option.some.injEq] at he'
        rw [if_neg (by omega), if_neg (by omega), Co.wp_bind]
        apply wp_getBits (v := e) g s he4 (by simp)
        intro b2 r2 g2 s2
        dsimp only
        rw [if_neg (by omega)]
        rw [Nat.add_comm] at he'
        rw [show acc ++ List.replicate (e + [3, 3, 11].getD (17 - 16) 0) 0 = acc' from he']
        exact hgo b2 r2 g2 s2
      | manyZeros e =>
        have he4 : e < 128 := ho.2
        dsimp only [ClOp.sym]
        simp only [expandCl, Option.some.injEq] at he'
        rw [if_neg (by omega), if_neg (by omega), Co.wp_bind]
        apply wp_getBits (v := e) g s he4 (by simp)
        intro b2 r2 g2 s2
        dsimp only
        rw [if_neg (by omega)]
        rw [Nat.add_comm] at he'
        rw [show acc ++ List.replicate (e + [3, 3, 11].getD (18 - 16) 0) 0 = acc' from he']
        exact hgo b2 r2 g2 s2
    match ops, hs, hok, he with
    | [], hs, hok, he =>
      simp only [expandCl, Option.some.injEq] at he
      subst he
      exact key last R res hlast (by simpa using hs) hstep fun b' rest' g s => hend f b' rest' Q (hQ b' rest' g s)
    | o :: os, hs, hok, he =>
      rw [List.flatMap_cons, List.append_assoc] at hs
      have hoks : ∀ o ∈ os, o.Ok cl := fun o h => hok o (by simp [h])
      obtain ⟨acc', e1, e2, e3⟩ : ∃ acc', expandCl acc [o] = some acc' ∧ expandCl acc' os = some lens ∧ acc.length < acc'.length := by
        cases o with
        | len l => exact ⟨_, rfl, by simpa [expandCl] using he, by simp⟩
        | rep e =>
          rw [expandCl] at he
          rw [expandCl]
          split at he
          · exact absurd he (by simp)
          · exact ⟨_, rfl, he, by simp⟩
        | zeros e => exact ⟨_, rfl, by simpa [expandCl] using he, by simp⟩
        | manyZeros e => exact ⟨_, rfl, by simpa [expandCl] using he, by simp⟩
      exact key o _ acc' (hok o (by simp)) hs e1 fun b' rest' g s => ih g s hoks e2 (by omega) hQ

/-- A bad dynamic block up to the code length code. -/
theorem fl_dynHead {d : DynHead} (hd : d.Fits) {b : BitBuf} {rest : Bytes} {R : List Bool} (hb : b.Good)
    (hs : strm b rest = d.bits ++ R) {f : HuffTable × HuffTable × BitBuf → Co BitBuf}
    (hbad : ¬Usable d.cl ∧ hist.length ≤ N ∨ ∀ b' rest', b'.Good → strm b' rest' = R →
      (Co.bind (coTable d.cl) fun t2 => Co.bind (readLens t2 (d.nlit + d.ndist) (d.nlit + d.ndist) [] b') fun x =>
        (match x with
          | (lens, b) => if d.nlit + d.ndist ≠ lens.length then .stop .failed
            else Co.bind (coTable (lens.drop d.nlit)) fun t1 => Co.bind (coTable (lens.take d.nlit)) fun t0 =>
              Co.pure (t0, t1, b))).fl N rest' hist c) :
    (dynamicTables b >>= f).fl N rest hist c := by
  apply Co.fl_first
  obtain ⟨a1, a2, a3, a4, d1, d2, d4, d5, d6⟩ := hd
  unfold dynamicTables
  rw [DynHead.bits] at hs
  simp only [List.append_assoc] at hs
  apply Co.fl_bind (W := Still N) (fun _ _ => still)
  apply wp_getBits hb hs (by omega) (by omega)
  intro b1 r1 g1 s1
  dsimp only
  apply Co.fl_bind (W := Still N) (fun _ _ => still)
  apply wp_getBits g1 s1 (by omega) (by omega)
  intro b2 r2 g2 s2
  dsimp only
  apply Co.fl_bind (W := Still N) (fun _ _ => still)
  apply wp_getBits g2 s2 (by omega) (by omega)
  intro b3 r3 g3 s3
  dsimp only
  rw [show d.nlit - 257 + 257 = d.nlit by omega, show d.ndist - 1 + 1 = d.ndist by omega,
    show d.hclen - 4 + 4 = d.hclen by omega, dezigzag_eq]
  apply Co.fl_bind (W := Still N) (fun _ _ => still)
  apply wp_readClLens d.cl d2 _ _ g3 s3
  intro b4 r4 g4 s4
  dsimp only
  rw [clLens_eq d1 d6]
  rcases hbad with ⟨hu, hN⟩ | hgo
  · exact Co.fl_first _ _ (fl_coTable (fun l hl => (d2 l hl).trans (by omega)) hu hN)
  · exact hgo b4 r4 g4 s4

theorem lens_le15 {cl : List Nat} {ops : List ClOp} (hok : ∀ o ∈ ops, o.Ok cl) {acc lens : List Nat} (hacc : ∀ l ∈ acc, l ≤ 15)
    (h : expandCl acc ops = some lens) : ∀ l ∈ lens, l ≤ 15 := by
  induction ops generalizing acc with
  | nil => simp only [expandCl, Option.some.injEq] at h; rw [← h]; exact hacc
  | cons o os ih =>
    have ho := hok o (by simp)
    have hoks : ∀ o ∈ os, o.Ok cl := fun o h => hok o (by simp [h])
    cases o with
    | len l =>
      refine ih hoks (acc := acc ++ [l]) ?_ (by simpa [expandCl] using h)
      intro x hx
      rcases List.mem_append.1 hx with h1 | h1
      · exact hacc x h1
      · rw [List.mem_singleton.1 h1]; exact ho.2
    | rep e =>
      rw [expandCl] at h
      split at h
      · exact absurd h (by simp)
      · rename_i l hl
        refine ih hoks (acc := acc ++ List.replicate (3 + e) l) ?_ h
        intro x hx
        rcases List.mem_append.1 hx with h1 | h1
        · exact hacc x h1
        · rw [(List.mem_replicate.1 h1).2]; exact hacc _ (List.mem_of_getLast? hl)
    | zeros e =>
      refine ih hoks (acc := acc ++ List.replicate (3 + e) 0) ?_ (by simpa [expandCl] using h)
      intro x hx
      rcases List.mem_append.1 hx with h1 | h1
      · exact hacc x h1
      · rw [(List.mem_replicate.1 h1).2]; omega
    | manyZeros e =>
      refine ih hoks (acc := acc ++ List.replicate (11 + e) 0) ?_ (by simpa [expandCl] using h)
      intro x hx
      rcases List.mem_append.1 hx with h1 | h1
      · exact hacc x h1
      · rw [(List.mem_replicate.1 h1).2]; omega

/-- A bad block, after its first three bits. -/
theorem fl_blockLoop_bad {F f pos : Nat} {bad : List Bool} (h : BadBlock pos bad) {b : BitBuf} {rest : Bytes} (hb : b.Good)
    (hs : strm b rest = bad) (hpos : (pos + (strm b rest).length) % 8 = 0) (hN : hist.length ≤ N) :
    (blockLoop false F (f + 1) b).fl N rest hist c := by
  rw [hs] at hpos
  have start : ∀ (final : Bool) (k : Nat) (R : List Bool), k < 4 → bad = final :: lsb 2 k ++ R →
      (∀ b' rest', b'.Good → strm b' rest' = R → (inflateBlock false F k b').fl N rest' hist c) →
      (blockLoop false F (f + 1) b).fl N rest hist c := by
    intro final k R hk he hgo
    rw [he, header_bits] at hs
    rw [blockLoop]
    apply Co.fl_bind (W := Still N) (fun _ _ => still)
    apply wp_getBits hb hs (by cases final <;> simp <;> omega) (by omega)
    intro b1 r1 g1 s1
    dsimp only
    rw [header_shift]
    exact Co.fl_first _ _ (hgo b1 r1 g1 s1)
  cases h with
  | reserved final more =>
    refine start final 3 more (by omega) rfl fun b' rest' g s => ?_
    unfold inflateBlock
    rw [if_neg (by omega), if_pos rfl]
    exact ⟨rfl, hN⟩
  | storedLength final pad len nlen more align short h1 h2 hbad =>
    refine start final 0 (pad ++ (lsb 16 len ++ (lsb 16 nlen ++ more))) (by omega) (by simp [List.append_assoc]) fun b' rest' g s => ?_
    unfold inflateBlock
    rw [if_pos rfl]
    have hl := congrArg List.length s
    rw [strm_length] at hl
    simp only [List.length_append, List.length_cons, lsb_length] at hl hpos
    exact fl_storedBlock g s (by omega) h1 h2 hbad hN
  | codeLengthCode final d more fits hbad =>
    refine start final 2 (d.bits ++ more) (by omega) (by simp [List.append_assoc]) fun b' rest' g s => ?_
    unfold inflateBlock
    rw [if_neg (by omega), if_neg (by omega), if_neg (by omega)]
    exact fl_dynHead fits g s (Or.inl ⟨hbad, hN⟩)
  | repeatFirst final d more fits ok has =>
    refine start final 2 (d.bits ++ (huff d.cl 16 ++ more)) (by omega) (by simp [List.append_assoc]) fun b' rest' g s => ?_
    unfold inflateBlock
    rw [if_neg (by omega), if_neg (by omega), if_neg (by omega)]
    refine fl_dynHead fits g s (Or.inr fun b2 r2 g2 s2 => ?_)
    have hL : LensOk d.cl := ⟨ok.1, ok.2, by rw [fits.2.2.2.2.1]; omega⟩
    apply Co.fl_bind (W := Still N) (fun _ _ => still)
    apply wp_coTable hL
    intro t2 ht2
    apply Co.fl_first
    obtain ⟨m, hm⟩ : ∃ m, d.nlit + d.ndist = m + 1 := ⟨d.nlit + d.ndist - 1, by have := fits.1; omega⟩
    rw [hm, readLens, if_pos (by simp)]
    apply Co.fl_bind (W := Still N) (fun _ _ => still)
    apply wp_huffDecode hL ht2 has g2 s2
    intro b3 r3 g3 s3
    dsimp only
    rw [if_neg (by omega), if_pos (by simp)]
    exact ⟨rfl, hN⟩
  | tooManyLengths final d ops last lens lens' more fits ok ops_ok before after few hbad =>
    refine start final 2 (d.bits ++ (ops.flatMap (ClOp.bits d.cl) ++ (ClOp.bits d.cl last ++ more))) (by omega)
      (by simp [List.append_assoc]) fun b' rest' g s => ?_
    unfold inflateBlock
    rw [if_neg (by omega), if_neg (by omega), if_neg (by omega)]
    refine fl_dynHead fits g s (Or.inr fun b2 r2 g2 s2 => ?_)
    have hL : LensOk d.cl := ⟨ok.1, ok.2, by rw [fits.2.2.2.2.1]; omega⟩
    apply Co.fl_bind (W := Still N) (fun _ _ => still)
    apply wp_coTable hL
    intro t2 ht2
    apply Co.fl_bind (W := Still N) (fun _ _ => still)
    refine wp_readLens_over hL ht2 (ops_ok last (by simp)) few (Nat.le_of_lt hbad) ?_ _ g2 s2
      (fun o ho => ops_ok o (by simp [ho])) before (by simp) ?_
    · rw [expandCl_snoc before] at after; exact after
    · intro b3 r3 g3 s3
      dsimp only
      rw [if_pos (by omega)]
      exact ⟨rfl, hN⟩
  | codes final d ops lit dist more fits ok ops_ok lens hlit hdist hbad =>
    refine start final 2 (d.bits ++ (ops.flatMap (ClOp.bits d.cl) ++ more)) (by omega)
      (by simp [List.append_assoc]) fun b' rest' g s => ?_
    unfold inflateBlock
    rw [if_neg (by omega), if_neg (by omega), if_neg (by omega)]
    refine fl_dynHead fits g s (Or.inr fun b2 r2 g2 s2 => ?_)
    have hL : LensOk d.cl := ⟨ok.1, ok.2, by rw [fits.2.2.2.2.1]; omega⟩
    apply Co.fl_bind (W := Still N) (fun _ _ => still)
    apply wp_coTable hL
    intro t2 ht2
    apply Co.fl_bind (W := Still N) (fun _ _ => still)
    have htot : d.nlit + d.ndist = (lit ++ dist).length := by rw [List.length_append, hlit, hdist]
    rw [htot]
    apply wp_readLens hL ht2 _ g2 s2 ops_ok lens (by simp)
    intro b3 r3 g3 s3
    dsimp only
    rw [if_neg (by simp), ← hlit, List.drop_left, List.take_left]
    have h15 := lens_le15 ops_ok (by simp) lens
    have hlit15 : ∀ l ∈ lit, l ≤ 15 := fun l hl => h15 l (by simp [hl])
    have hdist15 : ∀ l ∈ dist, l ≤ 15 := fun l hl => h15 l (by simp [hl])
    by_cases hud : Usable dist
    · have hul : ¬Usable lit := hbad.resolve_right (fun h => h hud)
      apply Co.fl_bind (W := Still N) (fun _ _ => still)
      have := fits.2.2.2.1
      apply wp_coTable ⟨hud.1, hud.2, by omega⟩
      intro t1 ht1
      exact Co.fl_first _ _ (fl_coTable hlit15 hul hN)
    · exact Co.fl_first _ _ (fl_coTable hdist15 hud hN)

end

/-- Legal blocks, then a bad one. -/
theorem fl_blockLoop {F : Nat} {out : List UInt8} {bad : List Bool} (hN : out.length ≤ N) (blocks : List Block) :
    ∀ {f pos : Nat} {b : BitBuf} {rest hist : Bytes} {c : Nat}, blocks.length < f →
    (∀ blk ∈ blocks, blk.toks < F) → StreamOk pos blocks → b.Good →
    strm b rest = blocks.flatMap (Block.bits false) ++ bad → BadBlock (pos + (blocks.flatMap (Block.bits false)).length) bad →
    (pos + (strm b rest).length) % 8 = 0 → expandBlocks hist.reverse blocks = some out →
    (blockLoop false F f b).fl N rest hist c := by
  induction blocks with
  | nil =>
    intro f pos b rest hist c hf hF hok hb hs hbad hpos he
    obtain ⟨f, rfl⟩ : ∃ g, f = g + 1 := ⟨f - 1, by simp at hf; omega⟩
    simp only [expandBlocks, Option.some.injEq] at he
    have : hist.length ≤ N := by rw [← he, List.length_reverse] at hN; exact hN
    exact fl_blockLoop_bad (by simpa using hbad) hb (by simpa using hs) hpos this
  | cons blk bs ih =>
    intro f pos b rest hist c hf hF hok hb hs hbad hpos he
    obtain ⟨f, rfl⟩ : ∃ g, f = g + 1 := ⟨f - 1, by omega⟩
    obtain ⟨hok1, hok2⟩ := hok
    obtain ⟨o, e1, e2⟩ := expandBlocks_cons he
    rw [List.flatMap_cons, List.append_assoc] at hs
    rw [List.flatMap_cons, List.length_append, ← Nat.add_assoc] at hbad
    rw [hs, List.length_append, blk.bits_length] at hpos
    rw [blk.bits_eq, List.append_assoc] at hs
    have hk := blk.kind_lt
    rw [blockLoop]
    apply Co.fl_bind (W := Still N) (fun _ _ => still)
    apply wp_getBits hb hs (by simp; omega) (by omega)
    intro b1 r1 g1 s1
    dsimp only
    rw [header_shift, header_and]
    apply Co.fl_bind (W := Need N 0) (fun _ _ h => h.1)
    have hpos1 : (pos + 3 + (strm b1 r1).length) % 8 = 0 := by
      rw [s1, List.length_append, ← hpos, List.length_append]; congr 1; omega
    apply wp_inflateBlock (M := 0) (tl := 0) (Slack.roomy (T := 0) (Or.inl rfl) 0) (hF blk (by simp)) hok1 g1 s1 hpos1 (Nat.zero_le _) e1
      ((expandBlocks_length_le e2).trans hN) (Nat.zero_le _)
    intro b2 r2 h2 c2 g2 s2 e3
    rw [if_pos (by simp)]
    apply ih (by simpa using hf) (fun x hx => hF x (by simp [hx])) hok2 g2 s2 hbad
    · rw [s2, blk.bits_length, ← hpos]; congr 1; omega
    · rw [e3]; exact e2

theorem nonfinal_bound {blocks : List Block} {pos : Nat} (h : StreamOk pos blocks) :
    blocks.length ≤ (blocks.flatMap (Block.bits false)).length ∧
      ∀ blk ∈ blocks, blk.toks < (blocks.flatMap (Block.bits false)).length := by
  induction blocks generalizing pos with
  | nil => simp
  | cons b bs ih =>
    obtain ⟨h1, h2⟩ := h
    obtain ⟨i1, i2⟩ := ih h2
    have h3 := block_toks_lt h1 false
    rw [List.flatMap_cons, List.length_append]
    constructor
    · rw [List.length_cons]; omega
    · intro blk hblk
      rcases List.mem_cons.mp hblk with rfl | hm
      · omega
      · have := i2 blk hm; omega

/-- **Data that are seen to be invalid are rejected.** -/
theorem npyInflate_breaks {z out : Bytes} (h : Breaks z out) (hsize : z.length ≤ CHUNK ∨ out.length ≤ CHUNK) {fuel : Nat}
    (hf : 8 * z.length + out.length + 2 ≤ fuel) :
    npyInflate false fuel z = .error (.throw (.runtimeError .inflateError)) := by
  obtain ⟨blocks, bad, hok, hz, hbad, he⟩ := h
  obtain ⟨hb1, hb2⟩ := nonfinal_bound hok
  have hl := congrArg List.length hz
  rw [bits_length, List.length_append] at hl
  refine npyInflate_fl (N := out.length) ?_ hsize (by omega)
  unfold tinfl
  refine fl_blockLoop (pos := 0) (Nat.le_refl _) blocks (by omega) (fun blk hblk => by have := hb2 blk hblk; omega) hok
    ⟨by simp [BitBuf.Ok], by simp⟩ (by rw [strm_zero rfl]; exact hz) (by rw [Nat.zero_add]; exact hbad) ?_ he
  rw [strm_zero rfl, bits_length]; omega

end Npy
