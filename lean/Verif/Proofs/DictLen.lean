import Verif.Spec.Npy
import Mathlib.Data.Nat.Digits.Lemmas
/-! How long header dictionaries get. -/

namespace Npy

theorem spec_decimal_length {n k : Nat} (hk : 0 < k) (h : n < 10 ^ k) : (Spec.decimal n).length ≤ k := by
  unfold Spec.decimal
  split
  · simp; omega
  · rw [List.length_map, List.length_reverse]
    exact (Nat.digits_length_le_iff (by omega) n).2 h

theorem intersperse_flatten_length (sep : Bytes) (ls : List Bytes) (k : Nat) (h : ∀ l ∈ ls, l.length ≤ k) :
    ((ls.intersperse sep).flatten).length ≤ (k + sep.length) * ls.length := by
  induction ls with
  | nil => simp
  | cons a ls ih =>
    cases ls with
    | nil =>
      have := h a (by simp)
      simp only [List.intersperse_singleton, List.flatten_cons, List.flatten_nil, List.append_nil, List.length_cons,
        List.length_nil]
      omega
    | cons b ls =>
      have h1 := h a (by simp)
      have h2 := ih fun l hl => h l (by simp [hl])
      rw [List.intersperse_cons_cons, List.flatten_cons, List.flatten_cons, List.length_append, List.length_append]
      simp only [List.length_cons] at h2 ⊢
      have : (k + sep.length) * (ls.length + 1 + 1) = (k + sep.length) * (ls.length + 1) + (k + sep.length) := by ring
      omega

theorem headerDict_length_bound (d : Bytes) (f : Bool) (ns : List Nat) (hn : ∀ n ∈ ns, n < 2 ^ 64) :
    (Spec.headerDict d f ns).length ≤ 53 + d.length + 22 * ns.length := by
  have h := intersperse_flatten_length b!", " (ns.map Spec.decimal) 20 fun l hl => by
    obtain ⟨n, hn', rfl⟩ := List.mem_map.1 hl
    exact spec_decimal_length (by decide) (lt_trans (hn n hn') (by decide))
  rw [List.length_map] at h
  unfold Spec.headerDict Spec.pyTuple Spec.pyBool
  simp only [List.length_append, List.length_cons, List.length_nil] at h ⊢
  have h1 : (if ns.length = 1 then b!"," else []).length ≤ 1 := by split <;> simp
  have h2 : (if f = true then b!"True" else b!"False").length ≤ 5 := by cases f <;> simp
  omega

theorem descr_length (t : DType) (ht : t ≠ .unicode) (big : Bool) : (Spec.descr t big).length ≤ 4 := by
  unfold Spec.descr
  have h1 : (Spec.decimal (Spec.itemSize t)).length ≤ 2 :=
    spec_decimal_length (by decide) (by cases t <;> decide)
  have h2 : (Spec.kind t).length = 1 := by cases t <;> rfl
  have h3 : (if Spec.itemSize t = 1 then b!"|" else if big = true then b!">" else b!"<").length = 1 := by
    split
    · rfl
    · split <;> rfl
  simp only [List.length_append]
  omega

/-- Up to eight axes always fit. -/
theorem headerDict_rank8 (t : DType) (ht : t ≠ .unicode) (big f : Bool) (ns : List Nat) (hn : ∀ n ∈ ns, n < 2 ^ 64)
    (hr : ns.length ≤ 8) : (Spec.headerDict (Spec.descr t big) f ns).length ≤ 245 := by
  have h1 := headerDict_length_bound (Spec.descr t big) f ns hn
  have h2 := descr_length t ht big
  omega

theorem descrU_length (len : Nat) (hl : len < 2 ^ 31) (big : Bool) : (Spec.descrU len big).length ≤ 12 := by
  unfold Spec.descrU
  have h1 : (Spec.decimal len).length ≤ 10 := spec_decimal_length (by decide) (lt_trans hl (by decide))
  have h3 : (if big = true then b!">" else b!"<").length = 1 := by split <;> rfl
  simp only [List.length_append, List.length_cons, List.length_nil]
  omega

theorem headerDict_rank8_unicode (len : Nat) (hl : len < 2 ^ 31) (big f : Bool) (ns : List Nat)
    (hn : ∀ n ∈ ns, n < 2 ^ 64) (hr : ns.length ≤ 8) : (Spec.headerDict (Spec.descrU len big) f ns).length ≤ 245 := by
  have h1 := headerDict_length_bound (Spec.descrU len big) f ns hn
  have h2 := descrU_length len hl big
  omega

end Npy
