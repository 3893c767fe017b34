import Verif.Spec.Accepted
import Verif.Proofs.Header
import Verif.Proofs.Cut
/-!
# Header texts that end early

What a release build makes of the beginning of a saved header, padded with zeros: no value of `descr` is missing or empty (so nothing
is undefined), and no dictionary is read.
-/

namespace Npy
open Spec (White WhiteChar ItemsRead DictRead EmptyDescr NoDescr)

/-- `des` does not occur. -/
def NoDes (l : Bytes) : Prop := ∀ A z, l ≠ A ++ 100 :: 101 :: 115 :: z

theorem noDes_of_not_mem {l : Bytes} (h : (100 : Byte) ∉ l) : NoDes l := by
  rintro A z rfl
  simp at h

theorem noDes_append {l₁ l₂ : Bytes} (h : (100 : Byte) ∉ l₁) (h2 : NoDes l₂) : NoDes (l₁ ++ l₂) := by
  intro A z e
  rcases List.append_eq_append_iff.1 e with ⟨c, rfl, e2⟩ | ⟨c, rfl, e2⟩
  · exact h2 c z e2
  · rcases c with _ | ⟨b, c⟩
    · exact h2 [] z e2.symm
    · simp only [List.cons_append, List.cons.injEq] at e2
      exact h (by rw [← e2.1]; simp)

theorem noDes_take {l : Bytes} (h : NoDes l) (k : Nat) : NoDes (l.take k) := by
  intro A z e
  refine h A (z ++ l.drop k) ?_
  conv_lhs => rw [← List.take_append_drop k l, e]
  simp

theorem noDes_zeros {l : Bytes} (h : NoDes l) (m : Nat) : NoDes (l ++ List.replicate m 0) := by
  intro A z e
  have key : ∀ (b : Byte) (r : Bytes), List.replicate m (0 : Byte) = b :: r → b = 0 := by
    intro b r hr
    have : b ∈ List.replicate m (0 : Byte) := by rw [hr]; simp
    exact (List.mem_replicate.1 this).2
  rcases List.append_eq_append_iff.1 e with ⟨c, rfl, e2⟩ | ⟨c, rfl, e2⟩
  · have : (100 : Byte) ∈ List.replicate m (0 : Byte) := by rw [e2]; simp
    have := (List.mem_replicate.1 this).2
    exact absurd this (by decide)
  · rcases c with _ | ⟨b1, _ | ⟨b2, _ | ⟨b3, c⟩⟩⟩
    · exact absurd (key _ _ e2.symm) (by decide)
    · simp only [List.cons_append, List.nil_append, List.cons.injEq] at e2
      exact absurd (key _ _ e2.2.symm) (by decide)
    · simp only [List.cons_append, List.nil_append, List.cons.injEq] at e2
      exact absurd (key _ _ e2.2.2.symm) (by decide)
    · simp only [List.cons_append, List.cons.injEq] at e2
      obtain ⟨rfl, rfl, rfl, -⟩ := e2
      exact h A c rfl

/-- The text of a saved header, behind `{'d`. -/
def dictTail (d : Bytes) (f : Bool) (ns : List Nat) : Bytes :=
  b!"escr': '" ++ d ++ b!"', 'fortran_or" ++ (b!"der': " ++ (Spec.pyBool f ++ b!", 'shape': " ++ Spec.pyTuple ns ++ b!", }"))

theorem headerDict_tail (d : Bytes) (f : Bool) (ns : List Nat) : Spec.headerDict d f ns = 123 :: 39 :: 100 :: dictTail d f ns := by
  simp [Spec.headerDict, dictTail]

theorem decimal_digit {n : Nat} {b : Byte} (h : b ∈ Spec.decimal n) : 48 ≤ b.toNat ∧ b.toNat ≤ 57 := by
  unfold Spec.decimal at h
  split at h
  · simp only [List.mem_cons, List.not_mem_nil, or_false] at h
    subst h
    decide
  · obtain ⟨k, hk, rfl⟩ := List.mem_map.1 h
    have hk' := Nat.digits_lt_base (b := 10) (by decide) (List.mem_reverse.1 hk)
    rw [UInt8.toNat_ofNat_of_lt' (by show _ < 256; omega)]
    omega

theorem intersperse_mem {ns : List Nat} {b : Byte} (h : b ∈ ((ns.map Spec.decimal).intersperse b!", ").flatten) :
    b.toNat ≤ 57 := by
  induction ns with
  | nil => simp at h
  | cons n ns ih =>
    rcases ns with _ | ⟨m, ns⟩
    · simp only [List.map_cons, List.map_nil, List.intersperse_singleton, List.flatten_cons, List.flatten_nil, List.append_nil] at h
      exact (decimal_digit h).2
    · simp only [List.map_cons, List.intersperse_cons_cons, List.flatten_cons, List.mem_append] at h ih
      rcases h with h | h | h
      · exact (decimal_digit h).2
      · simp only [List.mem_cons, List.not_mem_nil, or_false] at h
        rcases h with rfl | rfl <;> decide
      · exact ih h

theorem pyTuple_mem {ns : List Nat} {b : Byte} (h : b ∈ Spec.pyTuple ns) : b.toNat ≤ 57 := by
  unfold Spec.pyTuple at h
  simp only [List.mem_append] at h
  rcases h with ((h | h) | h) | h
  · simp only [List.mem_cons, List.not_mem_nil, or_false] at h
    subst h; decide
  · exact intersperse_mem h
  · split at h
    · simp only [List.mem_cons, List.not_mem_nil, or_false] at h
      subst h; decide
    · simp at h
  · simp only [List.mem_cons, List.not_mem_nil, or_false] at h
    subst h; decide

theorem dictTail_noDes {d : Bytes} (hd : (100 : Byte) ∉ d) (f : Bool) (ns : List Nat) : NoDes (dictTail d f ns) := by
  have hp : (100 : Byte) ∉ Spec.pyTuple ns := fun h => absurd (pyTuple_mem h) (by decide)
  have hX : (100 : Byte) ∉ b!"er': " ++ (Spec.pyBool f ++ b!", 'shape': " ++ Spec.pyTuple ns ++ b!", }") := by
    simp only [List.mem_append, not_or]
    refine ⟨by decide, ⟨⟨?_, by decide⟩, hp⟩, by decide⟩
    cases f <;> decide
  unfold dictTail
  refine noDes_append ?_ ?_
  · simp only [List.mem_append, not_or]
    exact ⟨⟨by decide, hd⟩, by decide⟩
  · generalize hY : Spec.pyBool f ++ b!", 'shape': " ++ Spec.pyTuple ns ++ b!", }" = Y at hX
    intro A z e
    rcases A with _ | ⟨a, A⟩
    · simp at e
    · simp only [List.cons_append, List.cons.injEq] at e
      exact noDes_of_not_mem hX A z (by simpa using e.2)

/-- Only the last character of a saved header is a closing brace. -/
theorem headerDict_brace {d : Bytes} (hd : (125 : Byte) ∉ d) (f : Bool) (ns : List Nat) {k : Nat}
    (hk : k < (Spec.headerDict d f ns).length) : (125 : Byte) ∉ (Spec.headerDict d f ns).take k := by
  have hp : (125 : Byte) ∉ Spec.pyTuple ns := fun h => absurd (pyTuple_mem h) (by decide)
  obtain ⟨X, hX, hn⟩ : ∃ X, Spec.headerDict d f ns = X ++ [125] ∧ (125 : Byte) ∉ X := by
    refine ⟨b!"{" ++ (b!"'descr': '" ++ d ++ b!"', ") ++ (b!"'fortran_order': " ++ Spec.pyBool f ++ b!", ") ++
      (b!"'shape': " ++ Spec.pyTuple ns ++ b!", "), rfl, ?_⟩
    simp only [List.mem_append, not_or]
    refine ⟨⟨⟨by decide, ⟨by decide, hd⟩, by decide⟩, ⟨by decide, ?_⟩, by decide⟩, ⟨by decide, hp⟩, by decide⟩
    cases f <;> decide
  rw [hX] at hk ⊢
  rw [List.length_append] at hk
  rw [List.take_append_of_le_length (by simpa using Nat.lt_succ_iff.1 hk)]
  exact fun h => hn (List.mem_of_mem_take h)

theorem itemsRead_split {strict : Bool} {fs : List Spec.Field} {text tail : Bytes} (h : ItemsRead strict fs text tail) :
    ∃ pre, text = pre ++ tail := by
  induction h with
  | nil => exact ⟨[], rfl⟩
  | cons _ _ _ _ _ _ _ _ _ _ _ _ _ _ ih =>
    obtain ⟨pre, rfl⟩ := ih
    exact ⟨_, by simp only [← List.append_assoc, ← List.cons_append]; rfl⟩

/-- A text without a closing brace is no dictionary. -/
theorem dictRead_brace {strict : Bool} {fs : List Spec.Field} {text : Bytes} (h : DictRead strict fs text) : (125 : Byte) ∈ text := by
  obtain ⟨c, rest, padding, rfl, -, h2⟩ := h
  obtain ⟨pre, rfl⟩ := itemsRead_split h2
  simp

theorem white_head {w r r' : Bytes} {c a : Byte} (hw : White w) (ha : ¬WhiteChar a) (e : w ++ c :: r = a :: r') :
    w = [] ∧ c = a ∧ r = r' := by
  rcases w with _ | ⟨b, w⟩
  · simpa using e
  · simp only [List.cons_append, List.cons.injEq] at e
    exact absurd (by rw [← e.1]; exact hw b (by simp)) ha

/-- Two texts that begin with white space and then something else. -/
theorem white_dark {w w' r r' : Bytes} {a b : Byte} (hw : White w) (hw' : White w') (ha : ¬WhiteChar a) (hb : ¬WhiteChar b)
    (e : w ++ a :: r = w' ++ b :: r') : w = w' ∧ a = b ∧ r = r' := by
  induction w generalizing w' with
  | nil =>
    rcases w' with _ | ⟨c, w'⟩
    · simpa using e
    · simp only [List.nil_append, List.cons_append, List.cons.injEq] at e
      exact absurd (by rw [e.1]; exact hw' c (by simp)) ha
  | cons c w ih =>
    rcases w' with _ | ⟨c', w'⟩
    · simp only [List.nil_append, List.cons_append, List.cons.injEq] at e
      exact absurd (by rw [← e.1]; exact hw c (by simp)) hb
    · simp only [List.cons_append, List.cons.injEq] at e
      obtain ⟨h1, h2, h3⟩ := ih (fun x hx => hw x (by simp [hx])) (fun x hx => hw' x (by simp [hx])) e.2
      exact ⟨by rw [e.1, h1], h2, h3⟩

theorem noDescr_not {s r : Bytes} {a b b' : Byte} (hs : White s) (ha : ¬WhiteChar a) (hb : ¬WhiteChar b) (hb' : b' ≠ 39) :
    ¬NoDescr (39 :: a :: (s ++ b :: b' :: r)) := by
  intro h
  generalize hz : 39 :: a :: (s ++ b :: b' :: r) = z at h
  have hnil : White [] := fun x hx => by simp at hx
  have dark : ∀ {w : Bytes}, White w → ∀ {x : Byte} {l r}, ¬WhiteChar x → l ++ x :: r = w → False := by
    intro w hw x l r hx e
    exact hx (hw x (by rw [← e]; simp))
  cases h with
  | quote => simp at hz
  | @colon w hw =>
    simp only [List.cons.injEq, true_and] at hz
    exact dark hw (l := []) ha hz
  | @value w c w' hw hc hw' =>
    simp only [List.cons.injEq, true_and] at hz
    obtain ⟨-, -, e⟩ := white_dark hnil hw ha hc (by simpa using hz)
    exact dark hw' hb e
  | @opened w c w' q hw hc hw' hq =>
    simp only [List.cons.injEq, true_and] at hz
    obtain ⟨-, -, e⟩ := white_dark hnil hw ha hc (by simpa using hz)
    obtain ⟨-, -, e⟩ := white_dark hs hw' hb hq e
    simp at e
  | @empty w c w' q r' hw hc hw' hq =>
    simp only [List.cons.injEq, true_and] at hz
    obtain ⟨-, -, e⟩ := white_dark hnil hw ha hc (by simpa using hz)
    obtain ⟨-, -, e⟩ := white_dark hs hw' hb hq e
    simp only [List.cons.injEq] at e
    exact hb' e.1

/-- In a saved header that ends early and is padded with zeros, `descr` has a value. -/
theorem cut_not_empty {d : Bytes} (hd : (100 : Byte) ∉ d) (hd2 : (39 : Byte) ∉ d) (hd3 : d ≠ []) (f : Bool) (ns : List Nat) (k m : Nat)
    (hm : 20 ≤ k + m) : ¬EmptyDescr ((Spec.headerDict d f ns).take k ++ List.replicate m 0) := by
  rintro ⟨c, rest, fs, w, q, z, h1, h2, -, hw, hq, -, hz⟩
  obtain ⟨pre, rfl⟩ := itemsRead_split h2
  have hT := dictTail_noDes hd f ns
  have hlen := congrArg List.length h1
  rw [headerDict_tail] at h1 hlen
  by_cases hk : k < 3
  · have : NoDes ((123 :: 39 :: 100 :: dictTail d f ns).take k ++ List.replicate m 0) := by
      refine noDes_zeros (noDes_of_not_mem ?_) _
      rcases k with _ | _ | _ | k
      · simp
      · simp
      · simp
      · omega
    exact this (c :: (pre ++ w ++ [q])) (99 :: 114 :: z) (by rw [h1]; simp)
  · obtain ⟨k, rfl⟩ : ∃ k', k = k' + 3 := ⟨k - 3, by omega⟩
    simp only [List.take_succ_cons, List.cons_append] at h1
    have hX : NoDes ((dictTail d f ns).take k ++ List.replicate m 0) := noDes_zeros (noDes_take hT k) m
    have hpw : pre = [] ∧ w = [] := by
      rcases pre with _ | ⟨p1, pre⟩
      · rcases w with _ | ⟨w1, w⟩
        · exact ⟨rfl, rfl⟩
        · exfalso
          simp only [List.nil_append, List.cons_append, List.cons.injEq] at h1
          obtain ⟨-, -, h1⟩ := h1
          rcases w with _ | ⟨w2, w⟩
          · simp only [List.nil_append, List.cons.injEq] at h1
            exact hX [] (99 :: 114 :: z) (by rw [h1.2]; rfl)
          · simp only [List.cons_append, List.cons.injEq] at h1
            exact hX (w ++ [q]) (99 :: 114 :: z) (by rw [h1.2]; simp)
      · exfalso
        simp only [List.cons_append, List.cons.injEq] at h1
        obtain ⟨-, -, h1⟩ := h1
        rcases hv : pre ++ w with _ | ⟨v, vs⟩
        · rw [← List.append_assoc, hv] at h1
          simp only [List.nil_append, List.cons.injEq] at h1
          exact hX [] (99 :: 114 :: z) (by rw [h1.2]; rfl)
        · rw [← List.append_assoc, hv] at h1
          simp only [List.cons_append, List.cons.injEq] at h1
          exact hX (vs ++ [q]) (99 :: 114 :: z) (by rw [h1.2]; simp)
    obtain ⟨rfl, rfl⟩ := hpw
    simp only [List.nil_append, List.cons.injEq] at h1
    obtain ⟨-, -, -, h1⟩ := h1
    have hz0 : ∀ (b : Byte) (r : Bytes), List.replicate m (0 : Byte) = b :: r → b = 0 := by
      intro b r hr
      have : b ∈ List.replicate m (0 : Byte) := by rw [hr]; simp
      exact (List.mem_replicate.1 this).2
    -- the next characters
    obtain ⟨x, xs, rfl⟩ := List.exists_cons_of_ne_nil hd3
    have hx : x ≠ 39 := fun h => hd2 (by simp [h])
    obtain ⟨Y, hY⟩ : ∃ Y, dictTail (x :: xs) f ns = 101 :: 115 :: 99 :: 114 :: 39 :: 58 :: 32 :: 39 :: x :: Y := ⟨_, by
      unfold dictTail; simp only [List.append_assoc, List.cons_append, List.nil_append]; rfl⟩
    rw [hY] at h1
    have hzl : 10 ≤ z.length := by
      have h5 := congrArg List.length h1
      have h6 := congrArg List.length hY
      have h7 : 20 ≤ (dictTail (x :: xs) f ns).length := by
        unfold dictTail
        simp only [List.length_append, List.length_cons, List.length_nil]
        omega
      simp only [List.length_append, List.length_take, List.length_replicate, List.length_cons] at h5 h6
      omega
    have n58 : ¬WhiteChar 58 := by unfold WhiteChar; decide
    have n39 : ¬WhiteChar 39 := by unfold WhiteChar; decide
    have n0 : ¬WhiteChar 0 := by unfold WhiteChar; decide
    have hnil : White [] := fun x hx => by simp at hx
    have w32 : White [32] := fun x hx => by
      simp only [List.mem_cons, List.not_mem_nil, or_false] at hx
      subst hx
      decide
    clear hlen hX hT hY h2 hd hd2
    have h4 : ∀ j : Nat, m + j = z.length → j < 7 → ∃ m', m = m' + 4 := fun j h h' => ⟨m - 4, by omega⟩
    rcases k with _ | _ | _ | _ | _ | _ | _ | _ | _ | k <;>
      simp only [List.take_succ_cons, List.take_zero, List.nil_append, List.cons_append, List.cons.injEq, Nat.zero_add, Nat.reduceAdd,
        true_and] at h1
    · exact absurd (hz0 _ _ h1) (by decide)
    · exact absurd (hz0 _ _ h1) (by decide)
    · exact absurd (hz0 _ _ h1) (by decide)
    · exact absurd (hz0 _ _ h1) (by decide)
    · subst h1
      rcases m with _ | m
      · simp at hzl
      · generalize hzz : List.replicate (m + 1) (0 : Byte) = z at hz
        rw [List.replicate_succ] at hzz
        cases hz <;> simp at hzz
    · subst h1
      obtain ⟨m, rfl⟩ := h4 1 (by simp) (by decide)
      exact noDescr_not (s := []) (a := 0) (b := 0) (b' := 0) (r := List.replicate (m + 1) 0) hnil n0 n0 (by decide)
        (by simpa [List.replicate_succ] using hz)
    · subst h1
      obtain ⟨m, rfl⟩ := h4 2 (by simp) (by decide)
      exact noDescr_not (s := []) (a := 58) (b := 0) (b' := 0) (r := List.replicate (m + 2) 0) hnil n58 n0 (by decide)
        (by simpa [List.replicate_succ] using hz)
    · subst h1
      obtain ⟨m, rfl⟩ := h4 3 (by simp) (by decide)
      exact noDescr_not (s := [32]) (a := 58) (b := 0) (b' := 0) (r := List.replicate (m + 2) 0) w32 n58 n0 (by decide)
        (by simpa [List.replicate_succ] using hz)
    · subst h1
      obtain ⟨m, rfl⟩ := h4 4 (by simp) (by decide)
      exact noDescr_not (s := [32]) (a := 58) (b := 39) (b' := 0) (r := List.replicate (m + 3) 0) w32 n58 n39 (by decide)
        (by simpa [List.replicate_succ] using hz)
    · subst h1
      exact noDescr_not (s := [32]) (a := 58) (b := 39) (b' := x) (r := Y.take k ++ List.replicate m 0) w32 n58 n39 hx
        (by simpa using hz)

end Npy
