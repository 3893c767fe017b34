import Verif.Proofs.InflateBlock
import Verif.Proofs.Stream
/-!
# The loops around the coroutine
-/

namespace Npy
open Spec.Deflate

section
variable {W : Nat → Nat → Prop}

/-- What one call of the decompressor does. -/
structure Resumed (W : Nat → Nat → Prop) (Q : Post Unit) (inp later hist : Bytes) (room : Nat) (st : TStatus) (t : TState) : Prop where
  len : t.hist.length + t.room = hist.length + room
  room : t.room ≤ room
  new : ∃ new, t.hist = new ++ hist
  used : ∃ used, inp = used ++ t.inp
  last : hist.length < t.hist.length → ∃ r, (t.inp ++ later).length ≤ r ∧ W (t.hist.length - 1) r
  cases : (st = .done ∧ t.co = .pure () ∧ ∃ c', Q () (t.inp ++ later) t.hist c') ∨
    (st = .needsMoreInput ∧ t.inp = [] ∧ later ≠ [] ∧ ∃ c' ≤ t.room, t.co.wp W Q later t.hist c') ∨
    (st = .hasMoreOutput ∧ t.room = 0 ∧ W t.hist.length (t.inp ++ later).length ∧
      t.co.wp W Q (t.inp ++ later) t.hist 0)

theorem Resumed.step {Q : Post Unit} {inp later hist : Bytes} {room : Nat} {b : UInt8} {st : TStatus} {t : TState}
    (h : Resumed W Q inp later (b :: hist) room st t) (hW : W hist.length (inp ++ later).length) :
    Resumed W Q inp later hist (room + 1) st t := by
  obtain ⟨h1, h2, ⟨new, h3⟩, ⟨used, h4⟩, h5, h6⟩ := h
  refine ⟨by rw [h1, List.length_cons]; omega, by omega, ⟨new ++ [b], by rw [h3]; simp⟩, ⟨used, h4⟩, fun _ => ?_, h6⟩
  by_cases hn : new = []
  · refine ⟨_, ?_, (?_ : W (t.hist.length - 1) (inp ++ later).length)⟩
    · rw [h4]; simp
    · rw [h3, hn]; exact hW
  · apply h5
    rw [h3, List.length_append]
    have := List.length_pos_iff.mpr hn
    omega

theorem Resumed.use {Q : Post Unit} {x : UInt8} {inp later hist : Bytes} {room : Nat} {st : TStatus} {t : TState}
    (h : Resumed W Q inp later hist room st t) : Resumed W Q (x :: inp) later hist room st t := by
  obtain ⟨h1, h2, h3, ⟨used, h4⟩, h5, h6⟩ := h
  exact ⟨h1, h2, h3, ⟨x :: used, by rw [h4]; rfl⟩, h5, h6⟩

theorem Co.resume_wp {Q : Post Unit} {later : Bytes} (co : Co Unit) : ∀ {inp hist : Bytes} {c room : Nat},
    co.wp W Q (inp ++ later) hist c → c ≤ room →
    ∃ st t, co.resume inp hist room = (st, t) ∧ Resumed W Q inp later hist room st t := by
  induction co with
  | pure a =>
    intro inp hist c room h hc
    exact ⟨_, _, rfl, rfl, Nat.le_refl _, ⟨[], rfl⟩, ⟨[], rfl⟩, fun h => absurd h (Nat.lt_irrefl _), Or.inl ⟨rfl, rfl, c, h⟩⟩
  | stop r => intro inp hist c room h hc; exact absurd h id
  | getByte k ih =>
    intro inp hist c room h hc
    match inp, h with
    | [], h =>
      refine ⟨_, _, rfl, rfl, Nat.le_refl _, ⟨[], rfl⟩, ⟨[], rfl⟩, fun h => absurd h (Nat.lt_irrefl _), Or.inr (Or.inl ⟨rfl, rfl, ?_, c, hc, h⟩)⟩
      rintro rfl
      exact h
    | x :: xs, h =>
      obtain ⟨st, t, h1, h2⟩ := ih x h hc
      exact ⟨st, t, h1, h2.use⟩
  | availIn k ih =>
    intro inp hist c room h hc
    exact ih inp.length (h inp.length (by rw [List.length_append]; omega)) hc
  | availOut k ih =>
    intro inp hist c room h hc
    exact ih room (h room hc) (Nat.le_refl _)
  | waitOut k ih =>
    intro inp hist c room h hc
    match room, hc with
    | 0, hc =>
      have : c = 0 := by omega
      subst this
      exact ⟨_, _, rfl, rfl, Nat.le_refl _, ⟨[], rfl⟩, ⟨[], rfl⟩, fun h => absurd h (Nat.lt_irrefl _), Or.inr (Or.inr ⟨rfl, rfl, h.1, h⟩)⟩
    | room + 1, hc => exact ih h.2 (by omega)
  | put b k ih =>
    intro inp hist c room h hc
    have h0 := h.1
    match room, hc with
    | 0, hc => omega
    | room + 1, hc =>
      obtain ⟨st, t, h1, h2⟩ := ih (room := room) h.2.2 (by omega)
      exact ⟨st, t, h1, h2.step h.2.1⟩
  | putBack d k ih =>
    intro inp hist c room h hc
    obtain ⟨h0, hW, b, hb, hk⟩ := h
    match room, hc with
    | 0, hc => omega
    | room + 1, hc =>
      obtain ⟨st, t, h1, h2⟩ := ih (room := room) hk (by omega)
      refine ⟨st, t, ?_, h2.step hW⟩
      rw [Co.resume, hb]
      exact h1

/-- The history never exceeds what it ends with. -/
theorem Co.wp_hist_le {M : Nat} {Q : Post Unit} (hQ : ∀ a r h c, Q a r h c → h.length ≤ M) (co : Co Unit) :
    ∀ {rest hist : Bytes} {c : Nat}, co.wp W Q rest hist c → hist.length ≤ M := by
  induction co with
  | pure a => intro rest hist c h; exact hQ _ _ _ _ h
  | stop r => intro rest hist c h; exact absurd h id
  | getByte k ih =>
    intro rest hist c h
    match rest, h with
    | [], h => exact absurd h id
    | x :: xs, h => exact ih x h
  | availIn k ih => intro rest hist c h; exact ih 0 (h 0 (Nat.zero_le _))
  | availOut k ih => intro rest hist c h; exact ih c (h c (Nat.le_refl _))
  | waitOut k ih => intro rest hist c h; exact ih h.2
  | put b k ih => intro rest hist c h; have := ih h.2.2; rw [List.length_cons] at this; omega
  | putBack d k ih =>
    intro rest hist c h
    obtain ⟨_, _, b, _, hk⟩ := h
    have := ih hk
    rw [List.length_cons] at this
    omega

/-! ### `mz_inflate` -/

variable {T L : Nat} {out later gone : Bytes}

/-- All the output is there, and at most `L` bits are unread. -/
def AllOut (out : Bytes) (L : Nat) : Post Unit := fun _ r h _ => h.reverse = out ∧ 8 * r.length ≤ L

theorem AllOut.len {a : Unit} {r h : Bytes} {c : Nat} (hq : AllOut out L a r h c) : h.length ≤ out.length := by
  rw [← hq.1, List.length_reverse]

/-- The decompressor is on its way to the output `out`; its input is what is left of the current chunk, then `later`. -/
structure Run (W : Nat → Nat → Prop) (L : Nat) (out later : Bytes) (s : InflateState) : Prop where
  wp : ∃ c ≤ 32768 - s.dictOfs, s.co.wp W (AllOut out L) (s.inp ++ later) s.hist c
  ofs : s.hist.length % 32768 = s.dictOfs
  avail : s.dictAvail = 0
  status : s.lastStatus ≠ .failed
  last : 0 < s.hist.length → ∃ r, (s.inp ++ later).length ≤ r ∧ W (s.hist.length - 1) r

/-- It is done. -/
structure Fin (L : Nat) (s : InflateState) (out later : Bytes) : Prop where
  co : s.co = .pure ()
  hist : s.hist.reverse = out
  left : 8 * (s.inp ++ later).length ≤ L
  avail : s.dictAvail = 0
  status : s.lastStatus ≠ .failed

theorem Run.hist_le {s : InflateState} (h : Run W L out later s) : s.hist.length ≤ out.length := by
  obtain ⟨c, _, hw⟩ := h.wp
  exact Co.wp_hist_le (fun _ _ _ _ h => AllOut.len h) _ hw

theorem flush_all {s : InflateState} (h : s.dictAvail ≤ s.availOut) :
    s.flush = { s with out := s.out ++ (s.hist.take s.dictAvail).reverse, availOut := s.availOut - s.dictAvail,
                       dictAvail := 0, dictOfs := (s.dictOfs + s.dictAvail) % 32768 } := by
  unfold InflateState.flush
  rw [Nat.min_eq_left h]
  simp only [Nat.sub_self]
  rw [show (32767 : Nat) = 2 ^ 15 - 1 from rfl, Nat.and_two_pow_sub_one_eq_mod]
  rw [List.take_of_length_le (by rw [List.length_reverse, List.length_take]; omega)]

/-- The output buffer never makes a rest stay in the dictionary: either everything is aligned, or the output is small. -/
def Fits (out : Bytes) (s : InflateState) : Prop :=
  (s.dictOfs = 0 ∧ 32768 ∣ s.availOut) ∨ (out.length ≤ CHUNK ∧ out.length ≤ s.hist.length + s.availOut)

/-- The state after one call of `tinfl_decompress`, before the output is copied. -/
def afterResume (s : InflateState) (st : TStatus) (t : TState) : InflateState :=
  { s with co := t.co, inp := t.inp, hist := t.hist, lastStatus := st, dictAvail := 32768 - s.dictOfs - t.room }

/-- The rest of a round of the loop. -/
def mzCont (orig f : Nat) (st : TStatus) (s : InflateState) : Except Err MzRet × InflateState :=
  match st with
  | .ub => (.error .ub, s)
  | .diverge => (.error .diverge, s)
  | .failed => (.ok .dataError, s)
  | st =>
    if st = .needsMoreInput ∧ orig = 0 then (.ok .bufError, s)
    else if st = .done ∨ s.inp = [] ∨ s.availOut = 0 ∨ s.dictAvail ≠ 0 then
      (.ok (if st = .done ∧ s.dictAvail = 0 then .streamEnd else .ok), s)
    else mzInflateLoop orig f s

theorem mzLoop_step {orig f : Nat} {s : InflateState} {st : TStatus} {t : TState}
    (h : s.co.resume s.inp s.hist (32768 - s.dictOfs) = (st, t)) :
    mzInflateLoop orig (f + 1) s = mzCont orig f st (afterResume s st t).flush := by
  rw [mzInflateLoop, h]
  cases st <;> rfl

/-- How a call of `mz_inflate` ends. -/
structure MzDone (W : Nat → Nat → Prop) (T L : Nat) (out later gone prev : Bytes) (s : InflateState) (ret : MzRet) (s' : InflateState) : Prop where
  outp : prev ++ s'.out = s'.hist.reverse
  len : s'.hist.length + s'.availOut = s.hist.length + s.availOut
  cases : (ret = .streamEnd ∧ Fin L s' out (later ++ gone)) ∨
    ((ret = .ok ∨ ret = .bufError) ∧ Run W L out (later ++ gone) s' ∧ (s'.inp = [] ∨ s'.availOut = 0) ∧
      (s'.inp = [] → later = [] → (T ≤ gone.length ∧ 32768 < out.length) ∨ gone ≠ []) ∧
      ((s'.availOut = 0 → s'.dictOfs = 0) ∨ out.length ≤ CHUNK))

theorem mzLoop_run (hN : ∀ h r, W h r → h < out.length ∧ (h % 32768 = 0 → T ≤ r)) (orig : Nat) {prev : Bytes} (f : Nat) : ∀ {s : InflateState}, Run W L out (later ++ gone) s →
    Fits out s → s.availOut ≠ 0 → prev ++ s.out = s.hist.reverse → out.length < f + s.hist.length →
    ∃ ret s', mzInflateLoop orig f s = (.ok ret, s') ∧ MzDone W T L out later gone prev s ret s' := by
  induction f with
  | zero => intro s hr _ _ _ hf; have := hr.hist_le; omega
  | succ f ih =>
    intro s hr hfit hav hout hf
    obtain ⟨c, hc, hw⟩ := hr.wp
    obtain ⟨st, t, hres, R⟩ := Co.resume_wp s.co hw hc
    have hofs := hr.ofs
    have hofs2 : s.dictOfs < 32768 := by rw [← hofs]; exact Nat.mod_lt _ (by omega)
    have hlen := R.len
    have hroom := R.room
    obtain ⟨new, hnew⟩ := R.new
    have hnl := congrArg List.length hnew
    rw [List.length_append] at hnl
    -- the history stays below the final one
    have hle : t.hist.length ≤ out.length := by
      rcases R.cases with ⟨_, _, c', h⟩ | ⟨_, _, _, c', _, h⟩ | ⟨_, _, h, _⟩
      · exact AllOut.len h
      · exact Co.wp_hist_le (fun _ _ _ _ h => AllOut.len h) _ h
      · exact Nat.le_of_lt (hN _ _ h).1
    -- so that everything fits into the output buffer
    have hfl : 32768 - s.dictOfs - t.room ≤ s.availOut := by
      rcases hfit with ⟨h2, h3⟩ | ⟨_, h⟩
      · obtain ⟨k, hk⟩ := h3
        have : k ≠ 0 := by rintro rfl; omega
        omega
      · omega
    have hF := flush_all (s := afterResume s st t) hfl
    have hda : 32768 - s.dictOfs - t.room = new.length := by omega
    generalize hs' : (afterResume s st t).flush = s' at hF
    have hstep := mzLoop_step (orig := orig) (f := f) hres
    rw [hs'] at hstep
    have e_co : s'.co = t.co := by rw [hF]; rfl
    have e_inp : s'.inp = t.inp := by rw [hF]; rfl
    have e_hist : s'.hist = t.hist := by rw [hF]; rfl
    have e_st : s'.lastStatus = st := by rw [hF]; rfl
    have e_da : s'.dictAvail = 0 := by rw [hF]
    have e_ofs : s'.dictOfs = t.hist.length % 32768 := by
      have : s'.dictOfs = (s.dictOfs + (32768 - s.dictOfs - t.room)) % 32768 := by rw [hF]; rfl
      rw [this, hda, hnl, ← hofs]; omega
    have e_out : prev ++ s'.out = s'.hist.reverse := by
      have : s'.out = s.out ++ (t.hist.take (32768 - s.dictOfs - t.room)).reverse := by rw [hF]; rfl
      rw [this, e_hist, hda, hnew, List.take_left, ← List.append_assoc, hout, List.reverse_append]
    have e_av : s'.availOut = s.availOut - new.length := by
      have : s'.availOut = s.availOut - (32768 - s.dictOfs - t.room) := by rw [hF]; rfl
      rw [this, hda]
    have e_len : s'.hist.length + s'.availOut = s.hist.length + s.availOut := by rw [e_hist, e_av]; omega
    have e_last : 0 < s'.hist.length → ∃ r, (s'.inp ++ (later ++ gone)).length ≤ r ∧ W (s'.hist.length - 1) r := by
      rw [e_hist, e_inp]
      intro h
      by_cases hn : s.hist.length < t.hist.length
      · exact R.last hn
      · obtain ⟨used, hu⟩ := R.used
        obtain ⟨r, hr1, hr2⟩ := hr.last (by omega)
        refine ⟨r, ?_, by rw [show t.hist.length = s.hist.length by omega]; exact hr2⟩
        rw [hu] at hr1
        simp only [List.length_append] at hr1 ⊢
        omega
    rcases R.cases with ⟨rfl, h2, c', h3⟩ | ⟨rfl, h2, h3, c', h4, h5⟩ | ⟨rfl, h2, h34, h5⟩
    · -- done
      rw [hstep]
      dsimp only [mzCont]
      rw [if_neg (by simp), if_pos (Or.inl rfl), if_pos ⟨rfl, e_da⟩]
      exact ⟨_, _, rfl, e_out, e_len, Or.inl ⟨rfl, by rw [e_co, h2], by rw [e_hist]; exact h3.1,
        by rw [e_inp]; exact h3.2, e_da, by rw [e_st]; simp⟩⟩
    · -- out of input
      have hrun : Run W L out (later ++ gone) s' := by
        refine ⟨⟨c', ?_, ?_⟩, by rw [e_hist, e_ofs], e_da, by rw [e_st]; simp, e_last⟩
        · rw [e_ofs]; omega
        · rw [e_co, e_inp, h2, e_hist]; exact h5
      have hG : (s'.availOut = 0 → s'.dictOfs = 0) ∨ out.length ≤ CHUNK := by
        rcases hfit with ⟨g2, ⟨k, hk⟩⟩ | ⟨h, _⟩
        · refine Or.inl fun h0 => ?_
          rw [e_av] at h0
          have : k ≠ 0 := by rintro rfl; omega
          rw [e_ofs]; omega
        · exact Or.inr h
      have hfin : ∀ ret, (ret = .ok ∨ ret = .bufError) → MzDone W T L out later gone prev s ret s' := fun ret hret =>
        ⟨e_out, e_len, Or.inr ⟨hret, hrun, Or.inl (by rw [e_inp, h2]),
          fun _ h => Or.inr (by rw [h] at h3; exact h3), hG⟩⟩
      rw [hstep]
      dsimp only [mzCont]
      by_cases ho : orig = 0
      · rw [if_pos ⟨rfl, ho⟩]
        exact ⟨_, _, rfl, hfin _ (Or.inr rfl)⟩
      · rw [if_neg (by simp [ho]), if_pos (Or.inr (Or.inl (by rw [e_inp, h2]))), if_neg (by simp)]
        exact ⟨_, _, rfl, hfin _ (Or.inl rfl)⟩
    · -- the dictionary is full
      have h3 := (hN _ _ h34).1
      have hmod : t.hist.length % 32768 = 0 := by omega
      have h4 := (hN _ _ h34).2 hmod
      have hpos : s.hist.length < t.hist.length := by omega
      have h0 : s'.dictOfs = 0 := by rw [e_ofs, hmod]
      have hrun : Run W L out (later ++ gone) s' := by
        refine ⟨⟨0, Nat.zero_le _, ?_⟩, by rw [e_hist, e_ofs], e_da, by rw [e_st]; simp, e_last⟩
        rw [e_co, e_inp, e_hist]; exact h5
      have hG : (s'.availOut = 0 → s'.dictOfs = 0) ∨ out.length ≤ CHUNK := Or.inl fun _ => h0
      rw [hstep]
      dsimp only [mzCont]
      rw [if_neg (by simp)]
      by_cases hstop : s'.inp = [] ∨ s'.availOut = 0
      · rw [if_pos (by rcases hstop with h | h <;> simp [h]), if_neg (by simp)]
        refine ⟨_, _, rfl, e_out, e_len, Or.inr ⟨Or.inl rfl, hrun, hstop, ?_, hG⟩⟩
        intro hi hl
        rw [e_inp] at hi
        rw [hi, hl] at h4
        exact Or.inl ⟨by simpa using h4, by omega⟩
      · rw [if_neg (by simp only [e_da]; simpa using hstop)]
        have hfit' : Fits out s' := by
          rcases hfit with ⟨g2, g3⟩ | ⟨g1, g2⟩
          · exact Or.inl ⟨h0, by rw [e_av, ← hda, g2, h2]; exact Nat.dvd_sub g3 (Nat.dvd_refl _)⟩
          · exact Or.inr ⟨g1, by rw [e_len]; exact g2⟩
        obtain ⟨ret, s2, i1, i2⟩ := ih hrun hfit' (by intro h; exact hstop (Or.inr h)) e_out (by rw [e_hist]; omega)
        exact ⟨ret, s2, i1, i2.outp, by rw [i2.len, e_len], i2.cases⟩

theorem mzInflate_run (hN : ∀ h r, W h r → h < out.length ∧ (h % 32768 = 0 → T ≤ r)) {prev : Bytes} {F : Nat} {s : InflateState} (hr : Run W L out (later ++ gone) s)
    (hfit : Fits out s) (hav : s.availOut ≠ 0) (hout : prev ++ s.out = s.hist.reverse) (hF : out.length < F) :
    ∃ ret s', mzInflate F s = (.ok ret, s') ∧ MzDone W T L out later gone prev s ret s' := by
  unfold mzInflate
  rw [if_neg hr.status, if_neg (by simpa using hr.avail)]
  exact mzLoop_run hN _ F hr hfit hav hout (by omega)

theorem mzInflate_fin {F : Nat} {s : InflateState} (h : Fin L s out later) (hF : 0 < F) :
    ∃ s', mzInflate F s = (.ok .streamEnd, s') ∧ s'.out = s.out ∧ s'.availOut = s.availOut := by
  unfold mzInflate
  rw [if_neg h.status, if_neg (by simpa using h.avail)]
  obtain ⟨f, rfl⟩ : ∃ f, F = f + 1 := ⟨F - 1, by omega⟩
  have hres : s.co.resume s.inp s.hist (32768 - s.dictOfs) =
      (.done, ⟨.pure (), s.inp, s.hist, 32768 - s.dictOfs⟩) := by rw [h.co]; rfl
  rw [mzLoop_step hres]
  have hda : (afterResume s .done ⟨.pure (), s.inp, s.hist, 32768 - s.dictOfs⟩).dictAvail = 0 := by
    simp [afterResume]
  have hF2 := flush_all (s := afterResume s .done ⟨.pure (), s.inp, s.hist, 32768 - s.dictOfs⟩) (by rw [hda]; omega)
  dsimp only [mzCont]
  rw [if_neg (by simp), if_pos (Or.inl rfl), if_pos ⟨rfl, by rw [hF2]⟩]
  refine ⟨_, rfl, ?_, ?_⟩
  · rw [hF2, hda]; simp [afterResume]
  · rw [hF2, hda]; simp [afterResume]

/-! ### `npy_inflate` -/

/-- With a fresh output buffer. -/
def fresh (s : InflateState) : InflateState := { s with availOut := CHUNK, out := [] }

theorem Run.fresh {s : InflateState} (h : Run W L out later s) : Run W L out later (fresh s) :=
  ⟨h.wp, h.ofs, h.avail, h.status, h.last⟩

theorem fresh_fits {s : InflateState} (h : s.dictOfs = 0 ∨ out.length ≤ CHUNK) : Fits out (fresh s) := by
  rcases h with h2 | h
  · exact Or.inl ⟨h2, ⟨32, rfl⟩⟩
  · exact Or.inr ⟨h, by show out.length ≤ s.hist.length + CHUNK; omega⟩

/-- How the inner loop ends. -/
def InnerDone (W : Nat → Nat → Prop) (T L : Nat) (out later gone : Bytes) (ret : MzRet) (s' : InflateState) (output' : Bytes) : Prop :=
  (ret = .streamEnd ∧ output' = out ∧ 8 * (later ++ gone).length ≤ L) ∨
  (ret ≠ .streamEnd ∧ Run W L out (later ++ gone) s' ∧ s'.inp = [] ∧ output' = s'.hist.reverse ∧
    (later = [] → (T ≤ gone.length ∧ 32768 < out.length) ∨ gone ≠ []))

theorem inner_run (hN : ∀ h r, W h r → h < out.length ∧ (h % 32768 = 0 → T ≤ r)) {F : Nat} (hF : out.length < F) (f : Nat) : ∀ {s : InflateState} {output : Bytes},
    Run W L out (later ++ gone) s → (s.dictOfs = 0 ∨ out.length ≤ CHUNK) → output = s.hist.reverse →
    out.length + 1 < f + s.hist.length →
    ∃ ret s' output', npyInflateInner F f s output = .ok (ret, s', output') ∧ InnerDone W T L out later gone ret s' output' := by
  induction f with
  | zero => intro s output hr _ _ hf; have := hr.hist_le; omega
  | succ f ih =>
    intro s output hr hG ho hf
    obtain ⟨ret, s', h1, h2⟩ := mzInflate_run hN (prev := output) (gone := gone) (F := F) hr.fresh (fresh_fits hG)
      (by simp [Npy.fresh, CHUNK]) (by simp [Npy.fresh, ho]) hF
    have h1' : mzInflate F { s with availOut := CHUNK, out := [] } = (.ok ret, s') := h1
    rw [npyInflateInner, h1']
    have hlen : s'.hist.length + s'.availOut = s.hist.length + CHUNK := h2.len
    rcases h2.cases with ⟨rfl, hfin⟩ | ⟨hret, hrun, hstop, hT, hG'⟩
    · have hleft : 8 * (later ++ gone).length ≤ L := by
        have := hfin.left
        rw [List.length_append] at this
        omega
      dsimp only [mzCont]
      by_cases ha : s'.availOut = 0
      · rw [if_pos ha]
        have hC : CHUNK = 1048576 := rfl
        have hhl : s'.hist.length = out.length := by rw [← hfin.hist, List.length_reverse]
        obtain ⟨g, rfl⟩ : ∃ g, f = g + 1 := ⟨f - 1, by omega⟩
        obtain ⟨s2, j1, j2, j3⟩ : ∃ s2, mzInflate F { s' with availOut := CHUNK, out := [] } = (.ok .streamEnd, s2) ∧
            s2.out = [] ∧ s2.availOut = CHUNK := by
          have := mzInflate_fin (F := F) (s := Npy.fresh s') (out := out)
            ⟨hfin.co, hfin.hist, hfin.left, hfin.avail, hfin.status⟩ (by omega)
          exact this
        rw [npyInflateInner, j1]
        dsimp only [mzCont]
        rw [if_neg (by rw [j3]; simp [CHUNK]), j2, List.append_nil]
        exact ⟨_, _, _, rfl, Or.inl ⟨rfl, by rw [h2.outp, hfin.hist], hleft⟩⟩
      · rw [if_neg ha]
        exact ⟨_, _, _, rfl, Or.inl ⟨rfl, by rw [h2.outp, hfin.hist], hleft⟩⟩
    · have hne : ret ≠ .streamEnd := by rcases hret with rfl | rfl <;> simp
      have hgo : ∃ r s'' output', (if s'.availOut = 0 then npyInflateInner F f s' (output ++ s'.out)
          else .ok (ret, s', output ++ s'.out)) = .ok (r, s'', output') ∧ InnerDone W T L out later gone r s'' output' := by
        by_cases ha : s'.availOut = 0
        · rw [if_pos ha]
          have hC : CHUNK = 1048576 := rfl
          exact ih hrun (hG'.imp (fun h => h ha) id) h2.outp (by omega)
        · rw [if_neg ha]
          have hi := hstop.resolve_right ha
          exact ⟨_, _, _, rfl, Or.inr ⟨hne, hrun, hi, h2.outp, hT hi⟩⟩
      rcases hret with rfl | rfl <;> exact hgo

/-- The input stream has `later` left to give. -/
def StreamAt (input : IStream) (later : Bytes) : Prop :=
  (input.good = true ∧ input.rest = later) ∨ (input.eof = true ∧ later = [])

theorem StreamAt.read {input : IStream} {later : Bytes} (h : StreamAt input later) :
    ∃ input', IStream.read CHUNK input = (.ok (later.take CHUNK), input') ∧ StreamAt input' (later.drop CHUNK) ∧
      (input'.fail && !input'.eof) = false := by
  rcases h with ⟨hg, rfl⟩ | ⟨he, rfl⟩
  · by_cases hl : CHUNK ≤ input.rest.length
    · refine ⟨{ input with rest := input.rest.drop CHUNK }, ?_, Or.inl ⟨hg, rfl⟩, ?_⟩
      · show (if input.good then _ else _) = _
        rw [if_pos hg, if_pos hl]
      · have := (IStream.good_iff input).mp hg
        simp [this]
    · refine ⟨{ input with rest := [], eof := true, fail := true }, ?_, Or.inr ⟨rfl, ?_⟩, rfl⟩
      · show (if input.good then _ else _) = _
        rw [if_pos hg, if_neg hl, List.take_of_length_le (by omega)]
      · rw [List.drop_eq_nil_of_le (by omega)]
  · refine ⟨input.setFail, ?_, Or.inr ⟨he, rfl⟩, ?_⟩
    · show (if input.good then _ else _) = _
      rw [if_neg (by simp [IStream.good, he])]
      rfl
    · simp [IStream.setFail, he]

theorem outer_run (hN : ∀ h r, W h r → h < out.length ∧ (h % 32768 = 0 → T ≤ r)) {F : Nat} (hF : out.length + 1 < F) (f : Nat) : ∀ {later : Bytes} {s : InflateState} {input : IStream}
    {output : Bytes}, Run W L out (later ++ gone) { s with inp := [] } →
    (later = [] ∨ (later.drop CHUNK = [] ∧ s.dictOfs = 0) ∨ out.length ≤ CHUNK) → output = s.hist.reverse →
    StreamAt input later → (later = [] → (T ≤ gone.length ∧ 32768 < out.length) ∨ gone ≠ []) → later.length < f →
    (npyInflateOuter F f s input output = .ok out ∧ 8 * gone.length ≤ L) ∨
    (npyInflateOuter F f s input output = .error (.throw (.runtimeError .inflateError)) ∧
      ((T ≤ gone.length ∧ 32768 < out.length) ∨ gone ≠ [])) := by
  induction f with
  | zero => intro later s input output _ _ _ _ _ hf; omega
  | succ f ih =>
    intro later s input output hr hG ho hi hT hf
    obtain ⟨input', h1, h2, h3⟩ := hi.read
    rw [npyInflateOuter, h1]
    dsimp only
    rw [if_neg (by rw [h3]; simp)]
    have hC : CHUNK = 1048576 := rfl
    by_cases hl : later = []
    · rw [if_pos (by rw [hl]; rfl)]
      exact Or.inr ⟨rfl, hT hl⟩
    · have hlen : later.length ≠ 0 := by simpa using hl
      rw [if_neg (by intro h; have := congrArg List.length h; rw [List.length_take, List.length_nil] at this; omega)]
      have hr2 : Run W L out (later.drop CHUNK ++ gone) { s with inp := later.take CHUNK } := by
        refine ⟨?_, hr.ofs, hr.avail, hr.status, fun h => by
          have := hr.last h
          rw [← List.append_assoc, List.take_append_drop]
          exact this⟩
        obtain ⟨c, hc, hw⟩ := hr.wp
        refine ⟨c, hc, ?_⟩
        show s.co.wp W (AllOut out L) (later.take CHUNK ++ (later.drop CHUNK ++ gone)) s.hist c
        rw [← List.append_assoc, List.take_append_drop]
        exact hw
      obtain ⟨ret, s', output', j1, j2⟩ := inner_run hN (F := F) (by omega) F hr2 ((hG.resolve_left hl).imp And.right id) ho (by omega)
      rw [j1]
      dsimp only
      rcases j2 with ⟨rfl, j3, j4⟩ | ⟨j3, j4, j5, j6, j7⟩
      · rw [if_pos rfl, j3]
        rw [List.length_append] at j4
        exact Or.inl ⟨rfl, by omega⟩
      · rw [if_neg j3]
        have hs' : { s' with inp := [] } = s' := by rw [← j5]
        apply ih (later := later.drop CHUNK) (by rw [hs']; exact j4) ?_ j6 h2 j7 (by rw [List.length_drop]; omega)
        rcases hG with k | ⟨k, _⟩ | k
        · exact absurd k hl
        · exact Or.inl k
        · exact Or.inr (Or.inr k)

/-! ### Streams of tokens are not longer than their bits -/

theorem toks_le {lit dist : List Nat} {toks : List Tok} (h : ∀ t ∈ toks, t.Ok lit dist) :
    toks.length ≤ (toks.flatMap (Tok.bits lit dist)).length := by
  induction toks with
  | nil => simp
  | cons t ts ih =>
    have h1 := ih (fun x hx => h x (by simp [hx]))
    have h2 : 1 ≤ (t.bits lit dist).length := by
      have ht := h t (by simp)
      cases t with
      | lit b =>
        have : lenOf lit b.toNat ≠ 0 := ht
        rw [Tok.bits, huff_length]; omega
      | copy ls le ds de =>
        have : lenOf lit ls ≠ 0 := ht.2.2.1
        rw [Tok.bits]
        simp only [List.length_append, huff_length]; omega
    rw [List.flatMap_cons, List.length_append, List.length_cons]
    omega

theorem block_toks_lt {blk : Block} {pos : Nat} (h : blk.Ok pos) (final : Bool) : blk.toks < (blk.bits final).length := by
  rw [blk.bits_length]
  cases blk with
  | stored pad data => simp [Block.toks]
  | fixed toks => have := toks_le h; simp only [Block.toks, Block.body, List.length_append]; omega
  | dynamic d toks => have := toks_le h.2; simp only [Block.toks, Block.body, List.length_append]; omega

theorem blocks_bound {blocks : List Block} {pos : Nat} (h : StreamOk pos blocks) :
    blocks.length ≤ (streamBits blocks).length ∧ ∀ blk ∈ blocks, blk.toks < (streamBits blocks).length := by
  induction blocks generalizing pos with
  | nil => simp
  | cons b bs ih =>
    obtain ⟨h1, h2⟩ := h
    obtain ⟨i1, i2⟩ := ih h2
    obtain ⟨final, hb⟩ : ∃ final, (streamBits (b :: bs)).length = (b.bits final).length + (streamBits bs).length := by
      cases bs with
      | nil => exact ⟨true, by simp [streamBits]⟩
      | cons b2 bs2 => exact ⟨false, by rw [streamBits, List.length_append]; simp⟩
    have h3 := block_toks_lt h1 final
    constructor
    · rw [hb, List.length_cons]; omega
    · intro blk hblk
      rcases List.mem_cons.mp hblk with rfl | hm
      · omega
      · have := i2 blk hm; omega

/-- **Decompression of a legal stream, the last part of which may be missing.** -/
theorem npyInflate_roomy' {big : Bool} {z gone : Bytes} {blocks : List Block} {R : List Bool} (h0 : blocks ≠ []) (hh : ∀ blk ∈ blocks, HostFree big blk) (hok : StreamOk 0 blocks)
    (hz : Spec.bits (z ++ gone) = streamBits blocks ++ R) (he : expandBlocks [] blocks = some out)
    (hS : Roomy W out.length out.length R.length) (hN : ∀ h r, W h r → h < out.length ∧ (h % 32768 = 0 → T ≤ r))
    (hsize : z.length ≤ CHUNK ∨ out.length ≤ CHUNK) {fuel : Nat} (hf : 8 * (z ++ gone).length + out.length + 2 ≤ fuel) :
    (npyInflate big fuel z = .ok out ∧ 8 * gone.length ≤ R.length) ∨
    (npyInflate big fuel z = .error (.throw (.runtimeError .inflateError)) ∧
      ((T ≤ gone.length ∧ 32768 < out.length) ∨ gone ≠ [])) := by
  obtain ⟨hb1, hb2⟩ := blocks_bound hok
  have hl := congrArg List.length hz
  rw [bits_length, List.length_append (as := streamBits blocks)] at hl
  have hwp : (tinfl big fuel).wp W (AllOut out R.length) (z ++ gone) [] 0 := by
    unfold tinfl
    apply wp_blockLoop' (pos := 0) hS (Nat.le_refl _) (Nat.le_refl _) (Nat.le_refl _) (fun _ _ _ h h' => ⟨h, h'⟩) blocks h0
      (by omega) hh (fun blk hblk => by have := hb2 blk hblk; omega) hok ⟨by simp [BitBuf.Ok], by simp⟩
    · rw [strm_zero rfl]; exact hz
    · rw [strm_zero rfl, bits_length]; omega
    · exact he
  have hzl : (z ++ gone).length ≠ 0 := by
    intro h
    have := List.length_pos_iff.mpr h0
    omega
  rw [List.length_append] at hf hzl
  apply outer_run (W := W) hN (by omega) fuel (later := z)
  · refine ⟨⟨0, Nat.zero_le _, ?_⟩, rfl, rfl, by simp [inflateInit], fun h => absurd h (Nat.lt_irrefl 0)⟩
    exact hwp
  · rcases hsize with h | h
    · exact Or.inr (Or.inl ⟨List.drop_eq_nil_of_le h, rfl⟩)
    · exact Or.inr (Or.inr h)
  · rfl
  · exact Or.inl ⟨rfl, rfl⟩
  · intro h
    right
    rintro rfl
    rw [h] at hzl; simp at hzl
  · omega

theorem npyInflate_cut' {big : Bool} {z gone : Bytes} {blocks : List Block} {R : List Bool} (h0 : blocks ≠ []) (hh : ∀ blk ∈ blocks, HostFree big blk) (hok : StreamOk 0 blocks)
    (hz : Spec.bits (z ++ gone) = streamBits blocks ++ R) (he : expandBlocks [] blocks = some out) (hS : Slack T R.length)
    (hsize : z.length ≤ CHUNK ∨ out.length ≤ CHUNK) {fuel : Nat} (hf : 8 * (z ++ gone).length + out.length + 2 ≤ fuel) :
    (npyInflate big fuel z = .ok out ∧ 8 * gone.length ≤ R.length) ∨
    (npyInflate big fuel z = .error (.throw (.runtimeError .inflateError)) ∧
      ((T ≤ gone.length ∧ 32768 < out.length) ∨ gone ≠ [])) :=
  npyInflate_roomy' (W := Need out.length T) h0 hh hok hz he (hS.roomy _) (fun _ _ h => ⟨h.1, fun _ => h.2⟩) hsize hf

/-- Output that ends far enough behind a multiple of the window: when the window is full, there are bits to come for the
rest of the output, too many for the bit buffer. -/
theorem npyInflate_far' {big : Bool} {z : Bytes} {blocks : List Block} {R : List Bool} (h0 : blocks ≠ []) (hh : ∀ blk ∈ blocks, HostFree big blk) (hok : StreamOk 0 blocks)
    (hz : Spec.bits z = streamBits blocks ++ R) (he : expandBlocks [] blocks = some out)
    (hfar : 8127 ≤ (out.length - 1) % 32768)
    (hsize : z.length ≤ CHUNK ∨ out.length ≤ CHUNK) {fuel : Nat} (hf : 8 * z.length + out.length + 2 ≤ fuel) :
    npyInflate big fuel z = .ok out := by
  have hz' : Spec.bits (z ++ []) = streamBits blocks ++ R := by rw [List.append_nil]; exact hz
  have hf' : 8 * (z ++ []).length + out.length + 2 ≤ fuel := by rw [List.append_nil]; exact hf
  rcases npyInflate_roomy' (T := 1) (W := fun h r => h < out.length ∧ (h % 32768 = 0 → 1 ≤ r)) h0 hh hok hz' he
    (fun h L h1 h2 h3 r h4 h5 => ⟨h1, by intro h6; omega⟩) (fun _ _ h => h) hsize hf' with ⟨h, _⟩ | ⟨h, ⟨h1, h2⟩ | h1⟩
  · exact h
  · simp at h1
  · exact absurd rfl h1

/-- **Decompression of a legal stream.** -/
theorem npyInflate_run' {big : Bool} {z : Bytes} {blocks : List Block} {R : List Bool} (h0 : blocks ≠ []) (hh : ∀ blk ∈ blocks, HostFree big blk) (hok : StreamOk 0 blocks)
    (hz : Spec.bits z = streamBits blocks ++ R) (he : expandBlocks [] blocks = some out) (hS : Slack T R.length)
    (hsize : z.length ≤ CHUNK ∨ out.length ≤ CHUNK) {fuel : Nat} (hf : 8 * z.length + out.length + 2 ≤ fuel) :
    npyInflate big fuel z = .ok out ∨
    (npyInflate big fuel z = .error (.throw (.runtimeError .inflateError)) ∧ T = 0 ∧ 32768 < out.length) := by
  have hz' : Spec.bits (z ++ []) = streamBits blocks ++ R := by rw [List.append_nil]; exact hz
  have hf' : 8 * (z ++ []).length + out.length + 2 ≤ fuel := by rw [List.append_nil]; exact hf
  rcases npyInflate_cut' h0 hh hok hz' he hS hsize hf' with ⟨h, _⟩ | ⟨h, ⟨h1, h2⟩ | h1⟩
  · exact Or.inl h
  · exact Or.inr ⟨h, by simpa using h1, h2⟩
  · exact absurd rfl h1


theorem npyInflate_roomy {z gone : Bytes} {blocks : List Block} {R : List Bool} (h0 : blocks ≠ []) (hok : StreamOk 0 blocks)
    (hz : Spec.bits (z ++ gone) = streamBits blocks ++ R) (he : expandBlocks [] blocks = some out)
    (hS : Roomy W out.length out.length R.length) (hN : ∀ h r, W h r → h < out.length ∧ (h % 32768 = 0 → T ≤ r))
    (hsize : z.length ≤ CHUNK ∨ out.length ≤ CHUNK) {fuel : Nat} (hf : 8 * (z ++ gone).length + out.length + 2 ≤ fuel) :
    (npyInflate false fuel z = .ok out ∧ 8 * gone.length ≤ R.length) ∨
    (npyInflate false fuel z = .error (.throw (.runtimeError .inflateError)) ∧
      ((T ≤ gone.length ∧ 32768 < out.length) ∨ gone ≠ [])) :=
  npyInflate_roomy' h0 (fun _ _ => .inl rfl) hok hz he hS hN hsize hf

theorem npyInflate_cut {z gone : Bytes} {blocks : List Block} {R : List Bool} (h0 : blocks ≠ []) (hok : StreamOk 0 blocks)
    (hz : Spec.bits (z ++ gone) = streamBits blocks ++ R) (he : expandBlocks [] blocks = some out) (hS : Slack T R.length)
    (hsize : z.length ≤ CHUNK ∨ out.length ≤ CHUNK) {fuel : Nat} (hf : 8 * (z ++ gone).length + out.length + 2 ≤ fuel) :
    (npyInflate false fuel z = .ok out ∧ 8 * gone.length ≤ R.length) ∨
    (npyInflate false fuel z = .error (.throw (.runtimeError .inflateError)) ∧
      ((T ≤ gone.length ∧ 32768 < out.length) ∨ gone ≠ [])) :=
  npyInflate_cut' h0 (fun _ _ => .inl rfl) hok hz he hS hsize hf

theorem npyInflate_far {z : Bytes} {blocks : List Block} {R : List Bool} (h0 : blocks ≠ []) (hok : StreamOk 0 blocks)
    (hz : Spec.bits z = streamBits blocks ++ R) (he : expandBlocks [] blocks = some out)
    (hfar : 8127 ≤ (out.length - 1) % 32768)
    (hsize : z.length ≤ CHUNK ∨ out.length ≤ CHUNK) {fuel : Nat} (hf : 8 * z.length + out.length + 2 ≤ fuel) :
    npyInflate false fuel z = .ok out :=
  npyInflate_far' h0 (fun _ _ => .inl rfl) hok hz he hfar hsize hf

theorem npyInflate_run {z : Bytes} {blocks : List Block} {R : List Bool} (h0 : blocks ≠ []) (hok : StreamOk 0 blocks)
    (hz : Spec.bits z = streamBits blocks ++ R) (he : expandBlocks [] blocks = some out) (hS : Slack T R.length)
    (hsize : z.length ≤ CHUNK ∨ out.length ≤ CHUNK) {fuel : Nat} (hf : 8 * z.length + out.length + 2 ≤ fuel) :
    npyInflate false fuel z = .ok out ∨
    (npyInflate false fuel z = .error (.throw (.runtimeError .inflateError)) ∧ T = 0 ∧ 32768 < out.length) :=
  npyInflate_run' h0 (fun _ _ => .inl rfl) hok hz he hS hsize hf

end

end Npy
