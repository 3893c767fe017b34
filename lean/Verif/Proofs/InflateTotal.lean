import Verif.Proofs.InflateSound
/-!
# The loops around the coroutine, on any bytes that fit one input buffer
-/

set_option maxRecDepth 8000

namespace Npy
open Spec.Deflate

section
variable {N : Nat} {Q : Post Unit}

structure ResumedSp (N : Nat) (Q : Post Unit) (hist : Bytes) (room : Nat) (st : TStatus) (t : TState) : Prop where
  len : t.hist.length + t.room = hist.length + room
  room : t.room ≤ room
  new : ∃ new, t.hist = new ++ hist
  le : hist.length ≤ N → t.hist.length ≤ N
  cases : st = .failed ∨ (st = .done ∧ t.co = .pure () ∧ ∃ c', Q () t.inp t.hist c') ∨
    (st = .needsMoreInput ∧ t.inp = [] ∧ ∃ c' ≤ t.room, t.co.sp N Q [] t.hist c') ∨
    (st = .hasMoreOutput ∧ t.room = 0 ∧ t.co.sp N Q t.inp t.hist 0)

theorem ResumedSp.step {hist : Bytes} {room : Nat} {b : UInt8} {st : TStatus} {t : TState}
    (h : ResumedSp N Q (b :: hist) room st t) (hN : hist.length < N) : ResumedSp N Q hist (room + 1) st t := by
  obtain ⟨h1, h2, ⟨new, h3⟩, h4, h6⟩ := h
  exact ⟨by rw [h1, List.length_cons]; omega, by omega, ⟨new ++ [b], by rw [h3]; simp⟩,
    fun _ => h4 (by rw [List.length_cons]; omega), h6⟩

theorem Co.resume_sp (co : Co Unit) : ∀ {inp hist : Bytes} {c room : Nat},
    co.sp N Q inp hist c → c ≤ room →
    ∃ st t, co.resume inp hist room = (st, t) ∧ ResumedSp N Q hist room st t := by
  induction co with
  | pure a =>
    intro inp hist c room h hc
    exact ⟨_, _, rfl, rfl, Nat.le_refl _, ⟨[], rfl⟩, id, Or.inr (Or.inl ⟨rfl, rfl, c, h⟩)⟩
  | stop r =>
    intro inp hist c room h hc
    have h : r = .failed := h
    subst h
    exact ⟨_, _, rfl, rfl, Nat.le_refl _, ⟨[], rfl⟩, id, Or.inl rfl⟩
  | getByte k ih =>
    intro inp hist c room h hc
    match inp, h with
    | [], h =>
      exact ⟨_, _, rfl, rfl, Nat.le_refl _, ⟨[], rfl⟩, id, Or.inr (Or.inr (Or.inl ⟨rfl, rfl, c, hc, h⟩))⟩
    | x :: xs, h => exact ih x h hc
  | availIn k ih => intro inp hist c room h hc; exact ih inp.length (h _ (Nat.le_refl _)) hc
  | availOut k ih => intro inp hist c room h hc; exact ih room (h room hc) (Nat.le_refl _)
  | waitOut k ih =>
    intro inp hist c room h hc
    match room, hc with
    | 0, hc =>
      have : c = 0 := by omega
      subst this
      exact ⟨_, _, rfl, rfl, Nat.le_refl _, ⟨[], rfl⟩, id, Or.inr (Or.inr (Or.inr ⟨rfl, rfl, h⟩))⟩
    | room + 1, hc => exact ih h.2 (by omega)
  | put b k ih =>
    intro inp hist c room h hc
    have h0 := h.1
    match room, hc with
    | 0, hc => omega
    | room + 1, hc =>
      obtain ⟨st, t, h1, h2⟩ := ih (room := room) h.2.2 (by omega)
      exact ⟨st, t, h1, h2.step h.2.1⟩
  | putBack d k ih =>
    intro inp hist c room h hc
    obtain ⟨h0, hN, b, hb, hk⟩ := h
    match room, hc with
    | 0, hc => omega
    | room + 1, hc =>
      obtain ⟨st, t, h1, h2⟩ := ih (room := room) hk (by omega)
      refine ⟨st, t, ?_, h2.step hN⟩
      rw [Co.resume, hb]
      exact h1

/-! ### `mz_inflate` -/

/-- The decompressor is on its way; all the input is in the buffer. -/
structure RunSp (N : Nat) (Q : Post Unit) (s : InflateState) : Prop where
  sp : ∃ c ≤ 32768 - s.dictOfs, s.co.sp N Q s.inp s.hist c
  ofs : s.hist.length % 32768 = s.dictOfs
  avail : s.dictAvail = 0
  status : s.lastStatus ≠ .failed
  le : s.hist.length ≤ N

/-- How a call of `mz_inflate` ends. -/
def MzSp (N : Nat) (Q : Post Unit) (prev : Bytes) (s : InflateState) (ret : MzRet) (s' : InflateState) : Prop :=
  ret = .dataError ∨
  (prev ++ s'.out = s'.hist.reverse ∧ s'.hist.length + s'.availOut = s.hist.length + s.availOut ∧
    ((ret = .streamEnd ∧ s'.co = .pure () ∧ (∃ c, Q () s'.inp s'.hist c) ∧ s'.dictAvail = 0 ∧ s'.lastStatus ≠ .failed ∧ s'.hist.length ≤ N) ∨
     ((ret = .ok ∨ ret = .bufError) ∧ RunSp N Q s' ∧ (s'.availOut = 0 → s'.dictOfs = 0))))

theorem mzLoop_sp (orig : Nat) {prev : Bytes} (f : Nat) : ∀ {s : InflateState}, RunSp N Q s → s.dictOfs = 0 →
    32768 ∣ s.availOut → s.availOut ≠ 0 → prev ++ s.out = s.hist.reverse → N < f + s.hist.length →
    ∃ ret s', mzInflateLoop orig f s = (.ok ret, s') ∧ MzSp N Q prev s ret s' := by
  induction f with
  | zero => intro s hr _ _ _ _ hf; have := hr.le; omega
  | succ f ih =>
    intro s hr hd0 hdvd hav hout hf
    obtain ⟨c, hc, hw⟩ := hr.sp
    obtain ⟨st, t, hres, R⟩ := Co.resume_sp s.co hw hc
    have hstep := mzLoop_step (orig := orig) (f := f) hres
    rcases R.cases with rfl | hcont
    · rw [hstep]
      exact ⟨_, _, rfl, Or.inl rfl⟩
    have hofs := hr.ofs
    have hlen := R.len
    have hroom := R.room
    have hle := R.le hr.le
    obtain ⟨new, hnew⟩ := R.new
    have hnl := congrArg List.length hnew
    rw [List.length_append] at hnl
    obtain ⟨k, hk⟩ := hdvd
    have hk0 : k ≠ 0 := by rintro rfl; exact hav hk
    have hfl : 32768 - s.dictOfs - t.room ≤ s.availOut := by clear hcont; omega
    have hF := flush_all (s := afterResume s st t) hfl
    have hda : 32768 - s.dictOfs - t.room = new.length := by clear hcont; omega
    generalize hs' : (afterResume s st t).flush = s' at hF
    rw [hs'] at hstep
    have e_co : s'.co = t.co := by rw [hF]; rfl
    have e_inp : s'.inp = t.inp := by rw [hF]; rfl
    have e_hist : s'.hist = t.hist := by rw [hF]; rfl
    have e_st : s'.lastStatus = st := by rw [hF]; rfl
    have e_da : s'.dictAvail = 0 := by rw [hF]
    have e_ofs : s'.dictOfs = t.hist.length % 32768 := by
      have : s'.dictOfs = (s.dictOfs + (32768 - s.dictOfs - t.room)) % 32768 := by rw [hF]; rfl
      rw [this, hda, hnl, ← hofs]; clear hcont; omega
    have e_out : prev ++ s'.out = s'.hist.reverse := by
      have : s'.out = s.out ++ (t.hist.take (32768 - s.dictOfs - t.room)).reverse := by rw [hF]; rfl
      rw [this, e_hist, hda, hnew, List.take_left, ← List.append_assoc, hout, List.reverse_append]
    have e_av : s'.availOut = s.availOut - new.length := by
      have : s'.availOut = s.availOut - (32768 - s.dictOfs - t.room) := by rw [hF]; rfl
      rw [this, hda]
    have e_len : s'.hist.length + s'.availOut = s.hist.length + s.availOut := by
      rw [e_hist, e_av]; clear hcont; omega
    have e_al : s'.availOut = 0 → s'.dictOfs = 0 := by
      intro h0
      rw [e_av] at h0
      rw [e_ofs]
      clear hcont
      omega
    rcases hcont with ⟨rfl, h2, c', h3⟩ | ⟨rfl, h2, c', h4, h5⟩ | ⟨rfl, h2, h5⟩
    · rw [hstep]
      dsimp only [mzCont]
      rw [if_neg (by simp), if_pos (Or.inl rfl), if_pos ⟨rfl, e_da⟩]
      exact ⟨_, _, rfl, Or.inr ⟨e_out, e_len, Or.inl ⟨rfl, by rw [e_co, h2], ⟨c', by rw [e_inp, e_hist]; exact h3⟩, e_da,
        by rw [e_st]; simp, by rw [e_hist]; exact hle⟩⟩⟩
    · have hrun : RunSp N Q s' := by
        refine ⟨⟨c', ?_, ?_⟩, by rw [e_hist, e_ofs], e_da, by rw [e_st]; simp, by rw [e_hist]; exact hle⟩
        · rw [e_ofs]; omega
        · rw [e_co, e_inp, h2, e_hist]; exact h5
      have hfin : ∀ ret, (ret = .ok ∨ ret = .bufError) → MzSp N Q prev s ret s' := fun ret hret =>
        Or.inr ⟨e_out, e_len, Or.inr ⟨hret, hrun, e_al⟩⟩
      rw [hstep]
      dsimp only [mzCont]
      by_cases ho : orig = 0
      · rw [if_pos ⟨rfl, ho⟩]
        exact ⟨_, _, rfl, hfin _ (Or.inr rfl)⟩
      · rw [if_neg (by simp [ho]), if_pos (Or.inr (Or.inl (by rw [e_inp, h2]))), if_neg (by simp)]
        exact ⟨_, _, rfl, hfin _ (Or.inl rfl)⟩
    · have hmod : t.hist.length % 32768 = 0 := by omega
      have hpos : s.hist.length < t.hist.length := by omega
      have h0 : s'.dictOfs = 0 := by rw [e_ofs, hmod]
      have hrun : RunSp N Q s' := by
        refine ⟨⟨0, Nat.zero_le _, ?_⟩, by rw [e_hist, e_ofs], e_da, by rw [e_st]; simp, by rw [e_hist]; exact hle⟩
        rw [e_co, e_inp, e_hist]; exact h5
      rw [hstep]
      dsimp only [mzCont]
      rw [if_neg (by simp)]
      by_cases hstop : s'.inp = [] ∨ s'.availOut = 0
      · rw [if_pos (by rcases hstop with h | h <;> simp [h]), if_neg (by simp)]
        exact ⟨_, _, rfl, Or.inr ⟨e_out, e_len, Or.inr ⟨Or.inl rfl, hrun, e_al⟩⟩⟩
      · rw [if_neg (by simp only [e_da]; simpa using hstop)]
        obtain ⟨ret, s2, i1, i2⟩ := ih hrun h0 (by rw [e_av, ← hda, hd0, h2]; exact Nat.dvd_sub ⟨k, hk⟩ (Nat.dvd_refl _))
          (by intro h; exact hstop (Or.inr h)) e_out (by rw [e_hist]; omega)
        refine ⟨ret, s2, i1, i2.imp id fun i2 => ⟨i2.1, by rw [i2.2.1, e_len], i2.2.2⟩⟩

/-! ### `npy_inflate` -/

theorem inner_sp {F : Nat} (hF : N < F) (f : Nat) : ∀ {s : InflateState} {output : Bytes},
    RunSp N Q s → s.dictOfs = 0 → output = s.hist.reverse → N + 1 < f + s.hist.length →
    npyInflateInner F f s output = .error (.throw (.runtimeError .inflateError)) ∨
    ∃ ret s' output', npyInflateInner F f s output = .ok (ret, s', output') ∧
      (ret = .streamEnd → ∃ r h c, Q () r h c ∧ output' = h.reverse) := by
  induction f with
  | zero => intro s output hr _ _ hf; have := hr.le; omega
  | succ f ih =>
    intro s output hr hd ho hf
    have hC : CHUNK = 1048576 := rfl
    have hm : ∃ ret s', mzInflate F (fresh s) = (.ok ret, s') ∧ MzSp N Q output (fresh s) ret s' := by
      have hr' : RunSp N Q (fresh s) := ⟨hr.sp, hr.ofs, hr.avail, hr.status, hr.le⟩
      unfold mzInflate
      rw [if_neg hr'.status, if_neg (by simpa using hr'.avail)]
      exact mzLoop_sp _ F hr' hd ⟨32, rfl⟩ (by simp [fresh, CHUNK]) (by simp [fresh, ho]) (by omega)
    obtain ⟨ret, s', h1, h2⟩ := hm
    have h1' : mzInflate F { s with availOut := CHUNK, out := [] } = (.ok ret, s') := h1
    rw [npyInflateInner, h1']
    rcases h2 with rfl | ⟨hout, hlen, ⟨rfl, hco, ⟨c, hQ⟩, hda, hst, hle⟩ | ⟨hret, hrun, hG⟩⟩
    · exact Or.inl rfl
    · have hlen : s'.hist.length + s'.availOut = s.hist.length + CHUNK := hlen
      dsimp only
      by_cases ha : s'.availOut = 0
      · rw [if_pos ha]
        obtain ⟨g, rfl⟩ : ∃ g, f = g + 1 := ⟨f - 1, by omega⟩
        obtain ⟨s2, j1, j2, j3⟩ : ∃ s2, mzInflate F { s' with availOut := CHUNK, out := [] } = (.ok .streamEnd, s2) ∧
            s2.out = [] ∧ s2.availOut = CHUNK := by
          have := mzInflate_fin (F := F) (s := Npy.fresh s') (out := s'.hist.reverse) (L := 8 * s'.inp.length) (later := [])
            ⟨hco, rfl, by simp [fresh], hda, hst⟩ (by omega)
          exact this
        rw [npyInflateInner, j1]
        dsimp only
        rw [if_neg (by rw [j3]; simp [CHUNK]), j2, List.append_nil]
        exact Or.inr ⟨_, _, _, rfl, fun _ => ⟨_, _, c, hQ, hout⟩⟩
      · rw [if_neg ha]
        exact Or.inr ⟨_, _, _, rfl, fun _ => ⟨_, _, c, hQ, hout⟩⟩
    · have hlen : s'.hist.length + s'.availOut = s.hist.length + CHUNK := hlen
      have hne : ret ≠ .streamEnd := by rcases hret with rfl | rfl <;> simp
      have hgo : (if s'.availOut = 0 then npyInflateInner F f s' (output ++ s'.out)
          else .ok (ret, s', output ++ s'.out)) = .error (.throw (.runtimeError .inflateError)) ∨
          ∃ r s'' output', (if s'.availOut = 0 then npyInflateInner F f s' (output ++ s'.out)
          else .ok (ret, s', output ++ s'.out)) = .ok (r, s'', output') ∧
            (r = .streamEnd → ∃ r h c, Q () r h c ∧ output' = h.reverse) := by
        by_cases ha : s'.availOut = 0
        · rw [if_pos ha]
          exact ih hrun (hG ha) hout (by omega)
        · rw [if_neg ha]
          exact Or.inr ⟨_, _, _, rfl, fun h => absurd h hne⟩
      rcases hret with rfl | rfl <;> exact hgo

theorem npyInflate_sp {z : Bytes} {fuel : Nat} (h : (tinfl false fuel).sp N Q z [] 0) (hz : z.length ≤ CHUNK)
    (hf : N + 2 < fuel) :
    npyInflate false fuel z = .error (.throw (.runtimeError .inflateError)) ∨
    ∃ r hist c, Q () r hist c ∧ npyInflate false fuel z = .ok hist.reverse := by
  unfold npyInflate
  obtain ⟨f, rfl⟩ : ∃ f, fuel = f + 2 := ⟨fuel - 2, by omega⟩
  obtain ⟨input', h1, h2, h3⟩ := StreamAt.read (input := IStream.ofBytes z) (later := z) (Or.inl ⟨rfl, rfl⟩)
  rw [npyInflateOuter, h1]
  dsimp only
  rw [if_neg (by rw [h3]; simp), List.take_of_length_le hz]
  rw [List.drop_eq_nil_of_le hz] at h2
  by_cases hl : z = []
  · rw [if_pos hl]; exact Or.inl rfl
  · rw [if_neg hl]
    rcases inner_sp (N := N) (Q := Q) (F := f + 2) (by omega) (f + 2) (s := { inflateInit false (f + 2) with inp := z }) (output := [])
      ⟨⟨0, Nat.zero_le _, h⟩, rfl, rfl, by simp [inflateInit], Nat.zero_le _⟩ rfl rfl (by simp [inflateInit]; omega) with
      j | ⟨ret, s', output', j1, j2⟩
    · rw [j]; exact Or.inl rfl
    · rw [j1]
      dsimp only
      by_cases hret : ret = .streamEnd
      · rw [if_pos hret]
        obtain ⟨r, hh, c, hQ, he⟩ := j2 hret
        exact Or.inr ⟨r, hh, c, hQ, by rw [he]⟩
      · rw [if_neg hret]
        obtain ⟨input2, k1, k2, k3⟩ := h2.read
        rw [npyInflateOuter, k1]
        dsimp only
        rw [if_neg (by rw [k3]; simp), if_pos (by simp)]
        exact Or.inl rfl

end

/-- **Any bytes without a fault are expanded to what they stand for, or rejected.** -/
theorem npyInflate_sound {z : Bytes} (hz : ¬Faulty z) (hsize : z.length ≤ CHUNK) {fuel : Nat}
    (hf : 2064 * z.length + 3 ≤ fuel) :
    npyInflate false fuel z = .error (.throw (.runtimeError .inflateError)) ∨
    ∃ out, Inflates z out ∧ npyInflate false fuel z = .ok out := by
  have hs : strm ⟨0, 0⟩ z = Spec.bits z := strm_zero rfl z
  have hl : (strm ⟨0, 0⟩ z).length = 8 * z.length := by rw [hs, bits_length]
  rcases npyInflate_sp (N := 2064 * z.length) (Q := fun _ _ h _ => Inflates z h.reverse) (fuel := fuel) (z := z)
    (sp_blockLoop hz fuel ⟨by simp [BitBuf.Ok], by simp⟩ ⟨[], trivial, by rw [hs]; simp, rfl⟩ (by omega) (by omega)
      (by rw [hl]; simp; omega)) hsize (by omega) with h | ⟨r, hist, c, hQ, h⟩
  · exact Or.inl h
  · exact Or.inr ⟨_, hQ, h⟩

end Npy
