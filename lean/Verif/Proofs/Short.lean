import Verif.Proofs.Values
/-! Reading element data of any length, also when the stream ends early. -/

namespace Npy

/-- The state after asking for `k` bytes. -/
def IStream.adv (k : Nat) (s : IStream) : IStream :=
  if k ≤ s.rest.length then s.withRest (s.rest.drop k) else { s with rest := [], eof := true, fail := true }

/-- A stream that is good, or has been read past its end. -/
def IStream.Clean (s : IStream) : Prop := s.good = true ∨ (s.rest = [] ∧ s.eof = true ∧ s.fail = true)

/-- The next `k` bytes, missing ones replaced by `p`. -/
def IStream.padded (p : Byte) (k : Nat) (s : IStream) : Bytes :=
  s.rest.take k ++ List.replicate (k - s.rest.length) p

theorem IStream.padded_length (p : Byte) (k : Nat) (s : IStream) : (s.padded p k).length = k := by
  simp only [IStream.padded, List.length_append, List.length_take, List.length_replicate]; omega

theorem IStream.Clean.adv {s : IStream} (h : s.Clean) (k : Nat) : (s.adv k).Clean := by
  unfold IStream.adv
  split
  · cases h with
    | inl h => left; simpa using h
    | inr h => right; obtain ⟨h1, h2, h3⟩ := h; simp [IStream.withRest, h1, h2, h3]
  · right; simp

theorem IStream.Clean.adv_zero {s : IStream} : s.adv 0 = s := by
  simp [IStream.adv, IStream.withRest]

theorem IStream.Clean.adv_adv {s : IStream} (h : s.Clean) (a b : Nat) : (s.adv a).adv b = s.adv (a + b) := by
  obtain ⟨al, re, eo, fa, op, fi⟩ := s
  simp only [IStream.Clean, IStream.good] at h
  simp only [IStream.adv, IStream.withRest]
  by_cases h1 : a ≤ re.length
  · by_cases h2 : a + b ≤ re.length
    · have : b ≤ (re.drop a).length := by simp; omega
      simp only [h1, h2, this, if_true, List.drop_drop]
    · have : ¬ b ≤ (re.drop a).length := by simp; omega
      simp only [h1, h2, this, if_true, if_false]
  · have h2 : ¬ a + b ≤ re.length := by omega
    by_cases h3 : b ≤ 0
    · simp [h1, h2, h3]
    · simp [h1, h2, h3]

theorem IStream.padded_add {s : IStream} (p : Byte) (a b : Nat) :
    s.padded p (a + b) = s.padded p a ++ (s.adv a).padded p b := by
  unfold IStream.padded IStream.adv
  by_cases h1 : a ≤ s.rest.length
  · rw [if_pos h1]
    have e : a - s.rest.length = 0 := by omega
    simp only [IStream.withRest, e, List.replicate_zero, List.append_nil, List.length_drop, List.take_add, ← List.append_assoc]
    congr 2
    omega
  · rw [if_neg h1]
    simp only [List.take_nil, List.length_nil, List.nil_append, List.append_assoc]
    rw [List.take_of_length_le (by omega), List.take_of_length_le (by omega)]
    congr 1
    rw [List.replicate_append_replicate]
    congr 1; omega

theorem getcFF_gen {s : IStream} (h : s.Clean) : getcFF s = (.ok ((s.padded 0xFF 1).headD 0), s.adv 1) := by
  obtain ⟨al, re, eo, fa, op, fi⟩ := s
  unfold getcFF
  rw [SM.bind_apply]
  cases h with
  | inl h =>
    cases re with
    | nil => simp [IStream.getc, h, IStream.padded, IStream.adv, IStream.setEofFail]
    | cons b r => simp [IStream.getc, h, IStream.padded, IStream.adv, IStream.withRest]
  | inr h =>
    obtain ⟨h1, h2, h3⟩ := h
    simp only at h1 h2 h3
    subst h1 h2 h3
    simp [IStream.getc, IStream.good, IStream.padded, IStream.adv, IStream.setFail]

theorem readSwapElem_gen {s : IStream} (h : s.Clean) (is : List Nat) (m : Bytes) :
    readSwapElem is m s =
      (.ok ((is.zip (s.padded 0xFF is.length)).foldl (fun m ib => m.set ib.1 ib.2) m), s.adv is.length) := by
  induction is generalizing m s with
  | nil => simp [readSwapElem, IStream.Clean.adv_zero]
  | cons i is ih =>
    rw [readSwapElem, SM.bind_ok (getcFF_gen h), ih (h.adv 1), List.length_cons, Nat.add_comm is.length 1,
      IStream.padded_add, h.adv_adv]
    have hl := IStream.padded_length 0xFF 1 s
    match hp : s.padded 0xFF 1, hl with
    | [c], _ => simp

theorem readSwapElem_rev {s : IStream} (h : s.Clean) (n : Nat) :
    readSwapElem (List.range n).reverse (List.replicate n 0) s = (.ok (s.padded 0xFF n).reverse, s.adv n) := by
  rw [readSwapElem_gen h, List.length_reverse, List.length_range, set_reverse _ _ _ (IStream.padded_length _ _ _) (by simp)]
  simp

theorem set_forward (n : Nat) (m a : Bytes) (ha : a.length = n) (hm : n ≤ m.length) :
    (((List.range n).zip a).foldl (fun m ib => m.set ib.1 ib.2) m) = a ++ m.drop n := by
  induction n generalizing a with
  | zero => simp at ha; subst ha; simp
  | succ n ih =>
    obtain ⟨a, b, rfl⟩ : ∃ a' b, a = a' ++ [b] := by
      have hne : a ≠ [] := by intro h; simp [h] at ha
      exact ⟨a.dropLast, a.getLast hne, (List.dropLast_concat_getLast hne).symm⟩
    have hl : a.length = n := by simpa using ha
    rw [List.range_succ, List.zip_append (by simp [hl]), List.foldl_append, ih a hl (by omega)]
    simp only [List.zip_cons_cons, List.zip_nil_right, List.foldl_cons, List.foldl_nil]
    rw [List.set_append_right n b (by omega), hl, Nat.sub_self, List.drop_eq_getElem_cons (by omega), List.set_cons_zero]
    simp

theorem readSwapElem_fwd {s : IStream} (h : s.Clean) (n : Nat) :
    readSwapElem (List.range n) (List.replicate n 0) s = (.ok (s.padded 0xFF n), s.adv n) := by
  rw [readSwapElem_gen h, List.length_range, set_forward _ _ _ (IStream.padded_length _ _ _) (by simp)]
  simp

theorem chunks_succ' (k n : Nat) (p : Byte) (s : IStream) :
    chunks k (n + 1) (s.padded p ((n + 1) * k)) = s.padded p k :: chunks k n ((s.adv k).padded p (n * k)) := by
  rw [chunks, Nat.succ_mul, Nat.add_comm (n * k) k, IStream.padded_add, List.take_left' (IStream.padded_length _ _ _),
    List.drop_left' (IStream.padded_length _ _ _)]

theorem readSwapped_gen {t : DType} (h1 : t.oneByte = false) (hu : t ≠ .unicode) {s : IStream} (h : s.Clean) (n : Nat) :
    readSwapped t n s =
      (.ok ((chunks t.size n (s.padded 0xFF (n * t.size))).map List.reverse), s.adv (n * t.size)) := by
  induction n generalizing s with
  | zero => simp [readSwapped, chunks, IStream.Clean.adv_zero]
  | succ n ih =>
    rw [readSwapped, getOrder_eq t h1 hu, SM.bind_ok (readSwapElem_rev h _), SM.bind_ok (ih (h.adv _)), chunks_succ',
      h.adv_adv, Nat.succ_mul, Nat.add_comm t.size]
    rfl

theorem read_gen {s : IStream} (h : s.Clean) (k : Nat) :
    ∃ bs, IStream.read k s = (.ok bs, s.adv k) ∧ bs ++ List.replicate (k - bs.length) 0 = s.padded 0 k := by
  obtain ⟨al, re, eo, fa, op, fi⟩ := s
  cases h with
  | inl h =>
    by_cases hk : k ≤ re.length
    · refine ⟨re.take k, ?_, ?_⟩
      · simp [IStream.read, h, hk, IStream.adv, IStream.withRest]
      · simp [IStream.padded, Nat.sub_eq_zero_of_le hk, Nat.min_eq_left hk]
    · refine ⟨re, ?_, ?_⟩
      · simp [IStream.read, h, hk, IStream.adv]
      · simp [IStream.padded]; rw [List.take_of_length_le (by omega)]
  | inr h =>
    obtain ⟨h1, h2, h3⟩ := h
    simp only at h1 h2 h3
    subst h1 h2 h3
    refine ⟨[], ?_, by simp [IStream.padded]⟩
    by_cases hk : k ≤ 0
    · have : k = 0 := by omega
      simp [IStream.read, IStream.good, IStream.adv, IStream.setFail, this, IStream.withRest]
    · simp [IStream.read, IStream.good, IStream.adv, IStream.setFail, hk]

/-- Block transfer or byte-swapping loop. -/
def Swaps (cfg : Cfg) (t : DType) (e : Option Endian) : Prop :=
  t.oneByte = false ∧ e ≠ some .native ∧ e ≠ some (nativeEndian cfg)

instance (cfg : Cfg) (t : DType) (e : Option Endian) : Decidable (Swaps cfg t e) := by
  unfold Swaps; infer_instance

/-- What `read_values` returns for any contents of the stream. -/
theorem readFixed_gen {cfg : Cfg} {t : DType} (hu : t ≠ .unicode) {info : HeaderInfo} (n : Nat)
    (he : t.oneByte = true ∨ info.endianness ≠ none) {s : IStream} (h : s.Clean) :
    readFixed cfg t info n s =
      (.ok (if Swaps cfg t info.endianness then
          (chunks t.size n (s.padded 0xFF (n * t.size))).map fun m => memElem cfg t m.reverse
        else (chunks t.size n (s.padded 0 (n * t.size))).map (memElem cfg t)), s.adv (n * t.size)) := by
  have block : (do
      let bs ← IStream.read (n * t.blockFactor)
      let mem := bs ++ List.replicate (n * t.size - bs.length) 0
      pure ((chunks t.size n mem).map (memElem cfg t)) : IM (List Elem)) s =
      (.ok ((chunks t.size n (s.padded 0 (n * t.size))).map (memElem cfg t)), s.adv (n * t.size)) := by
    rw [blockFactor_eq]
    obtain ⟨bs, h1, h2⟩ := read_gen h (n * t.size)
    rw [SM.bind_ok h1, h2]
    rfl
  unfold readFixed
  by_cases ho : t.oneByte = true
  · have : ¬ Swaps cfg t info.endianness := by simp [Swaps, ho]
    rw [if_neg this]
    simp only [ho, if_true]
    exact block
  · have ho' : t.oneByte = false := by simpa using ho
    simp only [ho', Bool.false_eq_true, if_false]
    match hh : info.endianness, he with
    | none, .inl h => exact absurd h ho
    | none, .inr h => exact absurd rfl h
    | some e, _ =>
      simp only []
      by_cases hc : e = .native ∨ e = nativeEndian cfg
      · have : ¬ Swaps cfg t (some e) := by
          simp only [Swaps, Option.some.injEq, ne_eq]; tauto
        rw [if_neg this, if_pos hc]
        exact block
      · have : Swaps cfg t (some e) := by
          simp only [Swaps, Option.some.injEq, ne_eq]; tauto
        rw [if_pos this, if_neg hc, SM.bind_ok (readSwapped_gen ho' hu h n)]
        simp

theorem padded_all {s : IStream} (p : Byte) (a r : Bytes) : (s.withRest (a ++ r)).padded p a.length = a := by
  simp [IStream.padded, IStream.withRest]

theorem adv_all {s : IStream} (a r : Bytes) : (s.withRest (a ++ r)).adv a.length = s.withRest r := by
  simp [IStream.adv, IStream.withRest]

/-- Reading back what `writeFixed` wrote. -/
theorem readFixed_ok {cfg : Cfg} {t : DType} (hu : t ≠ .unicode) {e : Endian} {info : HeaderInfo} {vals : List Elem}
    (hv : ∀ v ∈ vals, ValidElem t v) (he : t.oneByte = true ∨ info.endianness ≠ none)
    (hs : Swaps cfg t info.endianness ↔ Swaps cfg t (some e)) {s : IStream} (h : s.good = true) (r : Bytes) :
    readFixed cfg t info vals.length (s.withRest (vals.flatMap (fixedBytes cfg t e) ++ r)) =
      (.ok vals, s.withRest r) := by
  have hl : (vals.flatMap (fixedBytes cfg t e)).length = vals.length * t.size :=
    flatMap_length _ _ _ fun v hx => fixedBytes_length (hv v hx)
  rw [readFixed_gen hu _ he (.inl (by simpa using h)), ← hl, padded_all, padded_all, adv_all]
  have hch := chunks_flatMap t.size (fixedBytes cfg t e) vals (fun v hx => fixedBytes_length (hv v hx)) []
  rw [List.append_nil] at hch
  rw [hch]
  congr 2
  by_cases hw : Swaps cfg t (some e)
  · rw [if_pos (hs.2 hw)]
    conv_rhs => rw [← List.map_id vals]
    rw [List.map_map]
    apply List.map_congr_left
    intro v hx
    have : ¬ (t.oneByte = true ∨ e = .native ∨ e = nativeEndian cfg) := by
      simp only [Swaps, Option.some.injEq, ne_eq] at hw; simp only [hw.1]; tauto
    simp only [Function.comp, fixedBytes, id]
    rw [if_neg this, List.reverse_reverse, memElem_memBytes (hv v hx)]
  · rw [if_neg (fun x => hw (hs.1 x))]
    conv_rhs => rw [← List.map_id vals]
    rw [List.map_map]
    apply List.map_congr_left
    intro v hx
    have : t.oneByte = true ∨ e = .native ∨ e = nativeEndian cfg := by
      simp only [Swaps, Option.some.injEq, ne_eq] at hw
      by_cases ho : t.oneByte = true
      · exact .inl ho
      · have ho : t.oneByte = false := by simpa using ho
        simp only [ho, true_and] at hw
        right; by_contra hc; apply hw; tauto
    simp only [Function.comp, fixedBytes, id]
    rw [if_pos this, memElem_memBytes (hv v hx)]

end Npy
