import Verif.Proofs.Blind
import Verif.Proofs.Npy
import Verif.Props.Npy
/-!
# What `load` returns, for arbitrary streams
-/

namespace Npy

theorem chunks_length (k n : Nat) (bs : Bytes) : (chunks k n bs).length = n := by
  induction n generalizing bs with
  | zero => rfl
  | succ n ih => simp [chunks, ih]

theorem chunks_get (k n : Nat) (bs : Bytes) (i : Nat) (h : i < n) :
    (chunks k n bs)[i]? = some ((bs.drop (i * k)).take k) := by
  induction n generalizing bs i with
  | zero => omega
  | succ n ih =>
    cases i with
    | zero => simp [chunks]
    | succ i => simp [chunks, ih (bs.drop k) i (by omega), Nat.succ_mul, Nat.add_comm]

theorem readSwapped_length {t : DType} {n : Nat} {s s' : IStream} {ms : List Bytes}
    (h : readSwapped t n s = (.ok ms, s')) : ms.length = n := by
  induction n generalizing s s' ms with
  | zero => simp only [readSwapped, SM.pure_apply, Prod.mk.injEq, Except.ok.injEq] at h; rw [← h.1]; rfl
  | succ n ih =>
    rw [readSwapped] at h
    obtain ⟨m, s1, h1, h⟩ := SM.of_bind_ok h
    obtain ⟨l, s2, h2, h⟩ := SM.of_bind_ok h
    simp only [SM.pure_apply, Prod.mk.injEq, Except.ok.injEq] at h
    rw [← h.1, List.length_cons, ih h2]

theorem readFixed_inv {cfg : Cfg} {t : DType} {info : HeaderInfo} {n : Nat} {s s' : IStream} {vals : List Elem}
    (h : readFixed cfg t info n s = (.ok vals, s')) : vals.length = n ∧ ∀ v ∈ vals, ValidElem t v := by
  have block : ∀ {vals}, (do
      let bs ← IStream.read (n * t.blockFactor)
      let mem := bs ++ List.replicate (n * t.size - bs.length) 0
      pure ((chunks t.size n mem).map (memElem cfg t)) : IM (List Elem)) s = (.ok vals, s') →
      vals.length = n ∧ ∀ v ∈ vals, ValidElem t v := by
    intro vals h
    obtain ⟨bs, s1, h1, h⟩ := SM.of_bind_ok h
    simp only [SM.pure_apply, Prod.mk.injEq, Except.ok.injEq] at h
    rw [← h.1]
    refine ⟨by simp [chunks_length], ?_⟩
    intro v hv
    obtain ⟨m, _, rfl⟩ := List.mem_map.1 hv
    exact memElem_valid cfg t m
  unfold readFixed at h
  simp only [] at h
  split at h
  · exact block h
  · split at h
    · simp at h
    · split at h
      · exact block h
      · obtain ⟨ms, s1, h1, h⟩ := SM.of_bind_ok h
        simp only [SM.pure_apply, Prod.mk.injEq, Except.ok.injEq] at h
        rw [← h.1]
        refine ⟨by simp [readSwapped_length h1], ?_⟩
        intro v hv
        obtain ⟨m, _, rfl⟩ := List.mem_map.1 hv
        exact memElem_valid cfg t m

theorem readSwapElem_length {is : List Nat} {m m' : Bytes} {s s' : IStream} (h : readSwapElem is m s = (.ok m', s')) :
    m'.length = m.length := by
  induction is generalizing m s with
  | nil => simp only [readSwapElem, SM.pure_apply, Prod.mk.injEq, Except.ok.injEq] at h; rw [← h.1]
  | cons i is ih =>
    rw [readSwapElem] at h
    obtain ⟨c, s1, h1, h⟩ := SM.of_bind_ok h
    rw [ih h]; simp

theorem toWchar_lt (cfg : Cfg) {v : Nat} (h : v < 2 ^ 32) : toWchar cfg v < 2 ^ (if cfg.wchar16 then 16 else 32) := by
  unfold toWchar
  split
  · exact Nat.mod_lt _ (by decide)
  · exact h

theorem readUnits_inv {cfg : Cfg} {e : Endian} {n : Nat} {acc w : WStr} {s s' : IStream}
    (ha : Spec.IsWide cfg acc) (h : readUnits cfg e n acc s = (.ok w, s')) : Spec.IsWide cfg w := by
  induction n generalizing acc s with
  | zero => simp only [readUnits, SM.pure_apply, Prod.mk.injEq, Except.ok.injEq] at h; rw [← h.1]; exact ha
  | succ n ih =>
    rw [readUnits] at h
    simp only [] at h
    obtain ⟨m, s1, h1, h⟩ := SM.of_bind_ok h
    have hm : m.length = 4 := by rw [readSwapElem_length h1]; rfl
    split at h
    · exact ih ha h
    · refine ih ?_ h
      intro c hc
      rcases List.mem_append.1 hc with hc | hc
      · exact ha c hc
      · simp only [List.mem_cons, List.not_mem_nil, or_false] at hc
        subst hc
        apply toWchar_lt
        have := hostValue_lt cfg m
        rw [hm] at this
        omega

theorem readWideLoop_inv {cfg : Cfg} {e : Endian} {len n : Nat} {l : List WStr} {s s' : IStream}
    (h : readWideLoop cfg e len n s = (.ok l, s')) : l.length = n ∧ ∀ w ∈ l, Spec.IsWide cfg w := by
  induction n generalizing s s' l with
  | zero => simp only [readWideLoop, SM.pure_apply, Prod.mk.injEq, Except.ok.injEq] at h; rw [← h.1]; simp
  | succ n ih =>
    rw [readWideLoop] at h
    obtain ⟨w, s1, h1, h⟩ := SM.of_bind_ok h
    obtain ⟨l', s2, h2, h⟩ := SM.of_bind_ok h
    simp only [SM.pure_apply, Prod.mk.injEq, Except.ok.injEq] at h
    obtain ⟨h3, h4⟩ := ih h2
    rw [← h.1]
    refine ⟨by simp [h3], ?_⟩
    intro v hv
    rcases List.mem_cons.1 hv with rfl | hv
    · exact readUnits_inv (by simp [Spec.IsWide]) h1
    · exact h4 v hv

theorem readWide_inv {cfg : Cfg} {info : HeaderInfo} {n : Nat} {l : List WStr} {s s' : IStream}
    (h : readWide cfg info n s = (.ok l, s')) : l.length = n ∧ ∀ w ∈ l, Spec.IsWide cfg w := by
  unfold readWide at h
  split at h
  · simp only [SM.pure_apply, Prod.mk.injEq, Except.ok.injEq] at h
    rw [← h.1]; simp; omega
  · split at h
    · simp at h
    · split at h
      · simp only [SM.pure_apply, Prod.mk.injEq, Except.ok.injEq] at h
        rw [← h.1]
        refine ⟨by simp, ?_⟩
        intro w hw
        rw [List.mem_replicate] at hw
        rw [hw.2]; simp [Spec.IsWide]
      · split at h
        · simp at h
        · exact readWideLoop_inv h

/-! ### Extents read from any header are 64-bit numbers -/

theorem extractSize_lt {s s' : IStream} {n : Nat} (h : IStream.extractSize s = (.ok (some n), s')) : n < SIZE := by
  have key : ∀ (P : Prop) [Decidable P] (d : Nat), d < SIZE → (if P then (SIZE - d) % SIZE else d) < SIZE := by
    intro P _ d hd
    split
    · exact Nat.mod_lt _ (by decide)
    · exact hd
  simp only [IStream.extractSize] at h
  split at h
  · split at h
    · simp at h
    · split at h
      all_goals
        split at h
        · simp at h
        · split at h
          · rename_i hlt
            simp only [Prod.mk.injEq, Except.ok.injEq, Option.some.injEq] at h
            rw [← h.1]
            exact key _ _ hlt
          · simp at h
  · simp at h

theorem readShapeLoop_lt {cfg : Cfg} {fuel : Nat} {acc ns : List Nat} {s s' : IStream} (ha : ∀ n ∈ acc, n < SIZE)
    (h : readShapeLoop cfg fuel acc s = (.ok ns, s')) : ∀ n ∈ ns, n < SIZE := by
  induction fuel generalizing acc s with
  | zero => simp [readShapeLoop] at h
  | succ fuel ih =>
    rw [readShapeLoop] at h
    obtain ⟨o, s1, h1, h⟩ := SM.of_bind_ok h
    cases o with
    | none => simp only [SM.pure_apply, Prod.mk.injEq, Except.ok.injEq] at h; rw [← h.1]; exact ha
    | some n =>
      have hn := extractSize_lt h1
      have hacc : ∀ m ∈ acc ++ [n], m < SIZE := by
        intro m hm
        rcases List.mem_append.1 hm with hm | hm
        · exact ha m hm
        · simp only [List.mem_cons, List.not_mem_nil, or_false] at hm; rw [hm]; exact hn
      simp only [] at h
      obtain ⟨c, s2, h2, h⟩ := SM.of_bind_ok h
      split at h
      · obtain ⟨_, s3, h3, h⟩ := SM.of_bind_ok h
        obtain ⟨_, s4, h4, h⟩ := SM.of_bind_ok h
        exact ih hacc h
      · exact ih hacc h

theorem readShape_lt {cfg : Cfg} {ns : List Nat} {s s' : IStream} (h : readShape cfg s = (.ok ns, s')) :
    ∀ n ∈ ns, n < SIZE := by
  unfold readShape at h
  obtain ⟨_, s1, h1, h⟩ := SM.of_bind_ok h
  obtain ⟨text, s2, h2, h⟩ := SM.of_bind_ok h
  obtain ⟨_, s3, h3, h⟩ := SM.of_bind_ok h
  simp only [SM.lift_apply, Prod.mk.injEq] at h
  match hq : readShapeLoop cfg (text.length + 1) [] (IStream.ofBytes text), h with
  | (r, s4), h =>
    simp only at h
    rw [h.1] at hq
    exact readShapeLoop_lt (by simp) hq

theorem setDescr_shape {h h' : HeaderInfo} {code : Bytes} (hd : setDescr h code = .ok h') : h'.shape = h.shape := by
  unfold setDescr at hd
  split at hd
  · simp at hd
  · split at hd
    · split at hd
      · simp only [Except.ok.injEq] at hd; rw [← hd]
      · simp at hd
    · simp only [Except.ok.injEq] at hd; rw [← hd]

theorem parseItem_shape {cfg : Cfg} {h h' : HeaderInfo} {s s' : IStream} (hs : ∀ n ∈ h.shape, n < SIZE)
    (hp : parseItem cfg h s = (.ok h', s')) : ∀ n ∈ h'.shape, n < SIZE := by
  unfold parseItem at hp
  obtain ⟨_, s1, h1, hp⟩ := SM.of_bind_ok hp
  obtain ⟨key, s2, h2, hp⟩ := SM.of_bind_ok hp
  obtain ⟨_, s3, h3, hp⟩ := SM.of_bind_ok hp
  obtain ⟨_, s4, h4, hp⟩ := SM.of_bind_ok hp
  obtain ⟨_, s5, h5, hp⟩ := SM.of_bind_ok hp
  obtain ⟨hv, s6, h6, hp⟩ := SM.of_bind_ok hp
  obtain ⟨_, s7, h7, hp⟩ := SM.of_bind_ok hp
  obtain ⟨_, s8, h8, hp⟩ := SM.of_bind_ok hp
  simp only [SM.pure_apply, Prod.mk.injEq, Except.ok.injEq] at hp
  rw [← hp.1]
  unfold parseValue at h6
  split at h6
  · obtain ⟨code, s9, _, h6⟩ := SM.of_bind_ok h6
    simp only [SM.lift_apply, Prod.mk.injEq] at h6
    rw [setDescr_shape h6.1]; exact hs
  · split at h6
    · obtain ⟨b, s9, _, h6⟩ := SM.of_bind_ok h6
      simp only [SM.pure_apply, Prod.mk.injEq, Except.ok.injEq] at h6
      rw [← h6.1]; exact hs
    · split at h6
      · obtain ⟨ns, s9, h9, h6⟩ := SM.of_bind_ok h6
        simp only [SM.pure_apply, Prod.mk.injEq, Except.ok.injEq] at h6
        rw [← h6.1]; exact readShape_lt h9
      · simp at h6

theorem parseItems_shape {cfg : Cfg} {fuel : Nat} {h h' : HeaderInfo} {s s' : IStream} (hs : ∀ n ∈ h.shape, n < SIZE)
    (hp : parseItems cfg fuel h s = (.ok h', s')) : ∀ n ∈ h'.shape, n < SIZE := by
  induction fuel generalizing h s with
  | zero => simp [parseItems] at hp
  | succ fuel ih =>
    rw [parseItems] at hp
    obtain ⟨c, s1, h1, hp⟩ := SM.of_bind_ok hp
    split at hp
    · simp only [SM.pure_apply, Prod.mk.injEq, Except.ok.injEq] at hp; rw [← hp.1]; exact hs
    · obtain ⟨h2, s2, hi, hp⟩ := SM.of_bind_ok hp
      exact ih (parseItem_shape hs hi) hp

theorem parseHeader_shape {cfg : Cfg} {dict : Bytes} {h : HeaderInfo} (hp : parseHeader cfg dict = .ok h) :
    ∀ n ∈ h.shape, n < SIZE := by
  unfold parseHeader at hp
  match hq : (do
    readChar cfg 123
    let h ← parseItems cfg (dict.length + 1) HeaderInfo.uninit
    readChar cfg 125
    pure h : IM HeaderInfo) (IStream.ofBytes dict), hp with
  | (r, s'), hp =>
    simp only at hp
    rw [hp] at hq
    obtain ⟨_, s1, h1, hq⟩ := SM.of_bind_ok hq
    obtain ⟨h2, s2, h3, hq⟩ := SM.of_bind_ok hq
    obtain ⟨_, s3, h4, hq⟩ := SM.of_bind_ok hq
    simp only [SM.pure_apply, Prod.mk.injEq, Except.ok.injEq] at hq
    rw [← hq.1]
    exact parseItems_shape (by simp [HeaderInfo.uninit]) h3

theorem readNpyHeader_shape {cfg : Cfg} {s s' : IStream} {h : HeaderInfo} (hp : readNpyHeader cfg s = (.ok h, s')) :
    ∀ n ∈ h.shape, n < SIZE := by
  unfold readNpyHeader at hp
  obtain ⟨header, s1, h1, hp⟩ := SM.of_bind_ok hp
  split at hp
  · split at hp
    · simp at hp
    · split at hp
      · obtain ⟨d, s2, h2, hp⟩ := SM.of_bind_ok hp
        simp only [SM.lift_apply, Prod.mk.injEq] at hp
        exact parseHeader_shape hp.1
      · split at hp
        · obtain ⟨e, s2, h2, hp⟩ := SM.of_bind_ok hp
          split at hp
          · obtain ⟨d, s3, h3, hp⟩ := SM.of_bind_ok hp
            simp only [SM.lift_apply, Prod.mk.injEq] at hp
            exact parseHeader_shape hp.1
          · simp at hp
        · obtain ⟨d, s2, h2, hp⟩ := SM.of_bind_ok hp
          simp only [SM.lift_apply, Prod.mk.injEq] at hp
          exact parseHeader_shape hp.1
  · split at hp <;> simp at hp

end Npy
