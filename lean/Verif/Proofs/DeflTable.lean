import Verif.Proofs.DeflLimit
import Verif.Proofs.DeflBits
/-!
# Huffman codes of the compressor: `tdefl_optimize_huffman_table`
-/

namespace Npy
open Finset Spec.Deflate

/-! ### Sorting -/

theorem byte_of (k shift : Nat) : (k >>> shift) &&& 255 = k / 2 ^ shift % 256 := by
  rw [Nat.shiftRight_eq_div_pow]
  exact Nat.and_two_pow_sub_one_eq_mod _ 8

/-- What a pass amounts to: the buckets one after the other. -/
def bucketPass (shift : Nat) (l : List SymFreq) : List SymFreq :=
  (List.range 256).flatMap fun b => l.filter fun s => (s.key >>> shift) &&& 255 == b

theorem bucketPass_mem {shift : Nat} {l : List SymFreq} {x : SymFreq} (h : x ∈ bucketPass shift l) : x ∈ l := by
  obtain ⟨b, -, hb⟩ := List.mem_flatMap.1 h
  exact (List.mem_filter.1 hb).1

theorem count_buckets (f : SymFreq → Nat) (l : List SymFreq) (x : SymFreq) (bs : List Nat) (hb : bs.Nodup) :
    (bs.flatMap fun b => l.filter fun s => f s == b).count x = if f x ∈ bs then l.count x else 0 := by
  induction bs with
  | nil => simp
  | cons b bs ih =>
    rw [List.flatMap_cons, List.count_append, ih (List.nodup_cons.1 hb).2]
    have hnb := (List.nodup_cons.1 hb).1
    by_cases e : f x = b
    · have : f x ∉ bs := by rwa [e]
      rw [if_neg this, if_pos (by simp [e])]
      rw [List.count_filter (by simp [e])]
      omega
    · have h0 : (l.filter fun s => f s == b).count x = 0 := by
        rw [List.count_eq_zero]
        intro hm
        have := (List.mem_filter.1 hm).2
        simp at this
        exact e this
      rw [h0, Nat.zero_add]
      simp [e]

theorem bucketPass_perm (shift : Nat) (l : List SymFreq) : (bucketPass shift l).Perm l := by
  rw [List.perm_iff_count]
  intro x
  rw [bucketPass, count_buckets (fun s => (s.key >>> shift) &&& 255) l x _ List.nodup_range, if_pos]
  rw [List.mem_range, byte_of]
  omega

theorem bucketPass_sorted (shift : Nat) (l : List SymFreq) (R : SymFreq → SymFreq → Prop)
    (hin : ∀ x y, x.key / 2 ^ shift % 256 = y.key / 2 ^ shift % 256 → x ∈ l → y ∈ l → R x y → R x y)
    (hR : l.Pairwise fun x y => x.key / 2 ^ shift % 256 = y.key / 2 ^ shift % 256 → R x y)
    (hlt : ∀ x ∈ l, ∀ y ∈ l, x.key / 2 ^ shift % 256 < y.key / 2 ^ shift % 256 → R x y) :
    (bucketPass shift l).Pairwise R := by
  rw [bucketPass, List.pairwise_flatMap]
  refine ⟨fun b _ => ?_, ?_⟩
  · rw [List.pairwise_filter]
    refine hR.imp ?_
    intro x y h hx hy
    rw [beq_iff_eq, byte_of] at hx hy
    exact h (by omega)
  · refine List.pairwise_lt_range.imp ?_
    intro a b hab x hx y hy
    obtain ⟨x1, x2⟩ := List.mem_filter.1 hx
    obtain ⟨y1, y2⟩ := List.mem_filter.1 hy
    rw [beq_iff_eq, byte_of] at x2 y2
    exact hlt x x1 y y1 (by omega)

theorem radixByte_lt (shift : Nat) (s : SymFreq) : radixByte shift s < 256 := by
  rw [radixByte, byte_of]; omega

theorem radixHist_eq (shift : Nat) (l : List SymFreq) (b : Nat) :
    radixHist shift l b = (l.filter fun s => radixByte shift s == b).length := by
  have key : ∀ (l : List SymFreq) (h : Nat → Nat),
      l.foldl (fun h s => setAt h (radixByte shift s) (h (radixByte shift s) + 1)) h b =
        h b + (l.filter fun s => radixByte shift s == b).length := by
    intro l
    induction l with
    | nil => intro h; simp
    | cons s l ih =>
      intro h
      rw [List.foldl_cons, ih, List.filter_cons, setAt]
      by_cases e : b = radixByte shift s
      · subst e
        simp; omega
      · rw [if_neg e, if_neg (by simpa using fun h => e h.symm)]
  rw [radixHist, key]; simp

theorem radixHist_perm {shift : Nat} {l l' : List SymFreq} (h : l.Perm l') : radixHist shift l = radixHist shift l' := by
  funext b
  rw [radixHist_eq, radixHist_eq]
  exact (h.filter _).length_eq

/-- The sum of the first `n` entries. -/
def sumTo (hist : Nat → Nat) : Nat → Nat
  | 0 => 0
  | n + 1 => sumTo hist n + hist n

theorem radixOffsets_eq (hist : Nat → Nat) (n : Nat) :
    (radixOffsets hist n).2 = sumTo hist n ∧ ∀ i < n, (radixOffsets hist n).1 i = sumTo hist i := by
  induction n with
  | zero => exact ⟨rfl, fun i h => by omega⟩
  | succ n ih =>
    have e : radixOffsets hist (n + 1) = (setAt (radixOffsets hist n).1 n (radixOffsets hist n).2, (radixOffsets hist n).2 + hist n) := by
      rw [radixOffsets, List.range_succ, List.foldl_append]; rfl
    rw [e]
    refine ⟨by rw [ih.1]; rfl, fun i hi => ?_⟩
    show setAt _ _ _ _ = _
    rw [setAt]
    by_cases h : i = n
    · rw [if_pos h, ih.1, h]
    · rw [if_neg h, ih.2 i (by omega)]

theorem sumTo_mono (hist : Nat → Nat) {a b : Nat} (h : a ≤ b) : sumTo hist a ≤ sumTo hist b := by
  induction b with
  | zero => rw [Nat.le_zero.1 h]
  | succ b ih =>
    rcases Nat.lt_or_ge a (b + 1) with h1 | h1
    · have := ih (by omega); rw [sumTo]; omega
    · rw [Nat.le_antisymm h h1]

/-- What the scattering loop has done when the elements of `p` are placed. -/
theorem radixScatter_inv (shift : Nat) (base : Nat → Nat) (p : List SymFreq) : ∀ (q : List SymFreq) (a : (Nat → Nat) × (Nat → SymFreq)),
    (∀ b < 256, base b + ((p ++ q).filter fun s => radixByte shift s == b).length ≤ base (b + 1)) →
    (∀ b < 256, a.1 b = base b + (p.filter fun s => radixByte shift s == b).length) →
    (∀ b < 256, ∀ i, (h : i < (p.filter fun s => radixByte shift s == b).length) →
      a.2 (base b + i) = (p.filter fun s => radixByte shift s == b)[i]) →
    ∀ b < 256, ∀ i, (h : i < ((p ++ q).filter fun s => radixByte shift s == b).length) →
      (radixScatterP shift q a).2 (base b + i) = ((p ++ q).filter fun s => radixByte shift s == b)[i] := by
  intro q
  induction q generalizing p with
  | nil =>
    intro a _ _ h2 b hb i hi
    simp only [List.append_nil] at hi ⊢
    exact h2 b hb i hi
  | cons s q ih =>
    intro a hbase h1 h2 b hb i hi
    have e : p ++ s :: q = (p ++ [s]) ++ q := by simp
    have hmono : ∀ c d, c < d → d ≤ 256 → base c + ((p ++ s :: q).filter fun x => radixByte shift x == c).length ≤ base d := by
      intro c d hcd hd
      induction d with
      | zero => omega
      | succ d ihd =>
        rcases Nat.lt_or_ge c d with h | h
        · have := ihd h (by omega)
          have := hbase d (by omega)
          omega
        · have : c = d := by omega
          subst this
          exact hbase c (by omega)
    have hle : ∀ c, (p.filter fun x => radixByte shift x == c).length ≤ ((p ++ s :: q).filter fun x => radixByte shift x == c).length := by
      intro c; rw [List.filter_append, List.length_append]; omega
    have hs := radixByte_lt shift s
    have hsle : (p.filter fun x => radixByte shift x == radixByte shift s).length + 1 ≤
        ((p ++ s :: q).filter fun x => radixByte shift x == radixByte shift s).length := by
      rw [List.filter_append, List.length_append, List.filter_cons_of_pos (by simp), List.length_cons]; omega
    simp only [e] at hi ⊢
    refine ih (p ++ [s]) _ (by simp only [← e]; exact hbase) ?_ ?_ b hb i hi
    · intro c hc
      show setAt _ _ _ _ = _
      rw [setAt, List.filter_append, List.length_append]
      by_cases h : c = radixByte shift s
      · rw [if_pos h, h1 _ hs, h]; simp; omega
      · rw [if_neg h, h1 _ hc, List.filter_cons_of_neg (by simpa using fun h' => h h'.symm)]; simp
    · intro c hc k hk
      show setAt _ _ _ _ = _
      rw [setAt, h1 _ hs]
      by_cases h : c = radixByte shift s
      · subst h
        have hk' : k < (p.filter fun x => radixByte shift x == radixByte shift s).length + 1 := by
          rw [List.filter_append, List.length_append, List.filter_cons_of_pos (by simp)] at hk; simpa using hk
        by_cases h' : k = (p.filter fun x => radixByte shift x == radixByte shift s).length
        · rw [if_pos (by omega)]
          subst h'
          simp [List.filter_append]
        · rw [if_neg (by omega), h2 _ hc k (by omega)]
          simp only [List.filter_append]
          rw [List.getElem_append_left]
      · have hk' : k < (p.filter fun x => radixByte shift x == c).length := by
          rw [List.filter_append, List.length_append, List.filter_cons_of_neg (by simpa using fun h' => h h'.symm)] at hk; simpa using hk
        have := hle c
        rw [if_neg, h2 _ hc k hk']
        · simp only [List.filter_append]
          rw [List.getElem_append_left]
        · rcases Nat.lt_or_gt_of_ne h with h3 | h3
          · have := hmono c _ h3 (by omega); omega
          · have := hmono _ c h3 (by omega); omega

/-- Every element goes to a place below `n`. -/
theorem radixScatter_pure (shift n : Nat) (base : Nat → Nat) (hn : base 256 ≤ n) (p : List SymFreq) :
    ∀ (q : List SymFreq) (a : (Nat → Nat) × (Nat → SymFreq)),
    (∀ b < 256, base b + ((p ++ q).filter fun s => radixByte shift s == b).length ≤ base (b + 1)) →
    (∀ b < 256, a.1 b = base b + (p.filter fun s => radixByte shift s == b).length) →
    radixScatter shift n q a = .ok (radixScatterP shift q a) := by
  intro q
  induction q generalizing p with
  | nil => intro a _ _; rfl
  | cons s q ih =>
    intro a hbase h1
    have e : p ++ s :: q = (p ++ [s]) ++ q := by simp
    have hmono : ∀ c ≤ 256, base c ≤ base 256 := by
      intro c hc
      have key : ∀ k ≤ 256, base (256 - k) ≤ base 256 := by
        intro k
        induction k with
        | zero => intro _; exact Nat.le_refl _
        | succ k ihk =>
          intro hk
          have := ihk (by omega)
          have h3 := hbase (256 - (k + 1)) (by omega)
          rw [show 256 - (k + 1) + 1 = 256 - k by omega] at h3
          omega
      have := key (256 - c) (by omega)
      rwa [show 256 - (256 - c) = c by omega] at this
    have hs := radixByte_lt shift s
    have hsle : (p.filter fun x => radixByte shift x == radixByte shift s).length + 1 ≤
        ((p ++ s :: q).filter fun x => radixByte shift x == radixByte shift s).length := by
      rw [List.filter_append, List.length_append, List.filter_cons_of_pos (by simp), List.length_cons]; omega
    have hk : a.1 (radixByte shift s) < n := by
      have g1 := h1 _ hs
      have g2 := hbase _ hs
      have g3 := hmono (radixByte shift s + 1) (by omega)
      omega
    rw [radixScatter, rdArr_ok _ hs, ok_bind, wrArr_ok _ _ hs, ok_bind, wrArr_ok _ _ hk, ok_bind]
    refine ih (p ++ [s]) _ (by simp only [← e]; exact hbase) ?_
    intro c hc
    show setAt _ _ _ _ = _
    rw [setAt, List.filter_append, List.length_append]
    by_cases h : c = radixByte shift s
    · rw [if_pos h, h1 _ hs, h]; simp; omega
    · rw [if_neg h, h1 _ hc, List.filter_cons_of_neg (by simpa using fun h' => h h'.symm)]; simp

theorem sumTo_hist (shift : Nat) (l : List SymFreq) : sumTo (radixHist shift l) 256 = l.length := by
  have key : ∀ n, sumTo (radixHist shift l) n = ((List.range n).flatMap fun b => l.filter fun s => radixByte shift s == b).length := by
    intro n
    induction n with
    | zero => rfl
    | succ n ih =>
      rw [sumTo, ih, List.range_succ, List.flatMap_append, List.flatMap_singleton, List.length_append, radixHist_eq]
  rw [key]
  exact (bucketPass_perm shift l).length_eq

theorem radixPass_pure (shift : Nat) (new : Nat → SymFreq) (l : List SymFreq) :
    radixPass shift (radixHist shift l) new l = .ok (radixPassP shift (radixHist shift l) new l) := by
  rw [radixPass, radixScatter_pure shift l.length (sumTo (radixHist shift l)) (Nat.le_of_eq (sumTo_hist shift l)) [] l _
    (fun b _ => by rw [List.nil_append, ← radixHist_eq]; exact Nat.le_refl _)
    (fun b hb => by rw [(radixOffsets_eq _ 256).2 b hb]; simp)]
  rfl

/-- A pass with the right histogram, whatever the target array holds. -/
theorem radixPass_eq (shift : Nat) (new : Nat → SymFreq) (l : List SymFreq) :
    radixPassP shift (radixHist shift l) new l = bucketPass shift l := by
  have h := radixScatter_inv shift (sumTo (radixHist shift l)) [] l ((radixOffsets (radixHist shift l) 256).1, new)
    (fun b _ => by rw [List.nil_append, ← radixHist_eq]; exact Nat.le_refl _)
    (fun b hb => by rw [(radixOffsets_eq _ 256).2 b hb]; simp)
    (fun b hb i hi => by simp at hi)
  simp only [List.nil_append] at h
  rw [radixPassP]
  generalize (radixScatterP shift l ((radixOffsets (radixHist shift l) 256).1, new)).2 = A at h ⊢
  have key : ∀ n ≤ 256, (List.range (sumTo (radixHist shift l) n)).map A =
      (List.range n).flatMap fun b => l.filter fun s => radixByte shift s == b := by
    intro n
    induction n with
    | zero => intro _; rfl
    | succ n ih =>
      intro hn
      rw [sumTo, List.range_add, List.map_append, ih (by omega), List.range_succ, List.flatMap_append, List.flatMap_singleton]
      congr 1
      apply List.ext_getElem
      · simp [radixHist_eq]
      · intro i h1 h2
        simp only [List.getElem_map, List.getElem_range]
        exact h n (by omega) i h2
  have htot : sumTo (radixHist shift l) 256 = l.length := by
    have h1 := congrArg List.length (key 256 (Nat.le_refl _))
    rw [List.length_map, List.length_range] at h1
    rw [h1]
    exact (bucketPass_perm shift l).length_eq
  rw [← htot, key 256 (Nat.le_refl _)]
  rfl

theorem radixSort_pure (l : List SymFreq) : radixSort l = .ok (radixSortP l) := by
  rw [radixSort, radixPass_pure, ok_bind, radixSortP]
  by_cases e : l.length = radixHist 8 l 0
  · rw [if_pos e, if_pos e]; rfl
  · rw [if_neg e, if_neg e, radixPass_eq, radixHist_perm (bucketPass_perm 0 l).symm, radixPass_pure]

theorem radixSort_eq (l : List SymFreq) : radixSortP l =
    if l.countP (fun s => (s.key >>> 8) &&& 255 == 0) = l.length then bucketPass 0 l else bucketPass 8 (bucketPass 0 l) := by
  have h : radixHist 8 l 0 = l.countP (fun s => (s.key >>> 8) &&& 255 == 0) := by
    rw [radixHist_eq, List.countP_eq_length_filter]; rfl
  unfold radixSortP
  dsimp only
  rw [radixPass_eq, h, radixHist_perm (bucketPass_perm 0 l).symm, radixPass_eq]
  by_cases e : l.countP (fun s => (s.key >>> 8) &&& 255 == 0) = l.length
  · rw [if_pos e, if_pos e.symm]
  · rw [if_neg e, if_neg (fun h => e h.symm)]

theorem radixSort_perm (l : List SymFreq) : (radixSortP l).Perm l := by
  rw [radixSort_eq]
  split
  · exact bucketPass_perm 0 l
  · exact (bucketPass_perm 8 _).trans (bucketPass_perm 0 l)

theorem radixSort_sorted (l : List SymFreq) (h : ∀ x ∈ l, x.key < 65536) :
    (radixSortP l).Pairwise fun x y => x.key ≤ y.key := by
  have h0 : (bucketPass 0 l).Pairwise fun x y => x.key % 256 ≤ y.key % 256 := by
    refine bucketPass_sorted 0 l _ (fun _ _ _ _ _ h => h) ?_ ?_
    · rw [List.pairwise_iff_forall_sublist]
      intro x y _ e
      simp at e
      omega
    · intro x _ y _ e
      simp at e
      omega
  rw [radixSort_eq]
  split
  · rename_i hc
    rw [List.countP_eq_length] at hc
    refine h0.imp_of_mem ?_
    intro x y hx hy hxy
    have hx' := bucketPass_mem hx
    have hy' := bucketPass_mem hy
    have := hc x hx'
    have := hc y hy'
    have := h x hx'
    have := h y hy'
    simp only [byte_of, beq_iff_eq] at *
    omega
  · have hb : ∀ x ∈ bucketPass 0 l, x.key < 65536 := fun x hx => h x (bucketPass_mem hx)
    refine bucketPass_sorted 8 _ _ (fun _ _ _ _ _ h => h) ?_ ?_
    · refine h0.imp_of_mem ?_
      intro x y hx hy hxy e
      have := hb x hx
      have := hb y hy
      omega
    · intro x hx y hy e
      have := hb x hx
      have := hb y hy
      omega

/-! ### Counting -/

theorem sum_counts (keys : List Nat) (L : Nat) (g : Nat → Nat) (h0 : g 0 = 0 ∨ 0 ∉ keys) (hk : ∀ k ∈ keys, k ≤ L) :
    ∑ i ∈ Ico 1 (L + 1), keys.count i * g i = (keys.map g).sum := by
  induction keys with
  | nil => simp
  | cons k ks ih =>
    have ih := ih (by rcases h0 with h | h
                      · exact .inl h
                      · exact .inr (fun hm => h (List.mem_cons_of_mem _ hm))) (fun k hk' => hk k (List.mem_cons_of_mem _ hk'))
    rw [List.map_cons, List.sum_cons, ← ih]
    have e : ∀ i, (k :: ks).count i * g i = (if i = k then g i else 0) + ks.count i * g i := fun i => by
      rw [List.count_cons]
      by_cases hik : i = k
      · subst hik; simp; ring
      · simp [hik, Ne.symm hik]
    simp only [e]
    rw [Finset.sum_add_distrib, Finset.sum_ite_eq']
    congr 1
    have := hk k (by simp)
    split
    · rfl
    · rename_i hm
      rw [Finset.mem_Ico] at hm
      have hk0 : k = 0 := by omega
      rcases h0 with h | h
      · rw [hk0, h]
      · exact absurd (by simp [hk0]) h

theorem sum_map_range (n : Nat) (f : Nat → Nat) : ((List.range n).map f).sum = ∑ i ∈ range n, f i := by
  rw [List.range_eq_range', sum_range', Finset.range_eq_Ico, Nat.zero_add]

theorem sum_getD (l : List SymFreq) : ∑ i ∈ range l.length, (l.getD i default).key = (l.map (·.key)).sum := by
  rw [← sum_map_range]
  congr 1
  apply List.ext_getElem
  · simp
  · intro i h1 h2
    simp at h1
    simp [List.getD, List.getElem?_eq_getElem h1]

/-! ### Sizes for symbols -/

theorem count_setAt (f : Nat → Nat) (s v l : Nat) (L : List Nat) (hL : L.Nodup) (hs : s ∈ L) (h0 : f s = 0) (hl : l ≠ 0) :
    (L.map (setAt f s v)).count l = (L.map f).count l + (if v = l then 1 else 0) := by
  induction L with
  | nil => simp at hs
  | cons x xs ih =>
    obtain ⟨hx, hxs⟩ := List.nodup_cons.1 hL
    rw [List.map_cons, List.map_cons, List.count_cons, List.count_cons]
    by_cases e : x = s
    · subst e
      have : xs.map (setAt f x v) = xs.map f := List.map_congr_left fun y hy => setAt_ne _ _ (by rintro rfl; exact hx hy)
      rw [this, setAt_self, h0]
      have : (0 == l) = false := by simp; omega
      simp [this]
    · rw [setAt_ne _ _ e, ih hxs (by simpa [Ne.symm e] using hs)]
      omega

theorem assignSizes_ok (len : Nat) (ss : List SymFreq) (ls : List Nat) (f : Nat → Nat) (hlen : ls.length = ss.length)
    (hnd : (ss.map (·.sym)).Nodup) (hlt : ∀ s ∈ ss, s.sym < len) (h288 : len ≤ 288) (h0 : ∀ s ∈ ss, f s.sym = 0) :
    ∃ f', assignSizes ss ls f = .ok f' ∧ (∀ s, s ∉ ss.map (·.sym) → f' s = f s) ∧
      (∀ s ∈ ss.map (·.sym), f' s ∈ ls) ∧
      ∀ l ≠ 0, ((List.range len).map f').count l = ((List.range len).map f).count l + ls.count l := by
  induction ss generalizing ls f with
  | nil =>
    cases ls with
    | nil => exact ⟨f, rfl, fun _ _ => rfl, by simp, by simp⟩
    | cons => simp at hlen
  | cons s ss ih =>
    cases ls with
    | nil => simp at hlen
    | cons v ls =>
      rw [List.map_cons, List.nodup_cons] at hnd
      obtain ⟨f', h1, h2, h3, h4⟩ := ih ls (setAt f s.sym v) (by simpa using hlen) hnd.2 (fun x hx => hlt x (by simp [hx]))
        (fun x hx => by
          rw [setAt_ne _ _ (fun e => hnd.1 (List.mem_map.2 ⟨x, hx, e⟩))]
          exact h0 x (by simp [hx]))
      refine ⟨f', by rw [assignSizes, wrArr_ok _ _ (by have := hlt s (by simp); omega), ok_bind, h1], ?_, ?_, ?_⟩
      · intro x hx
        rw [List.map_cons, List.mem_cons, not_or] at hx
        rw [h2 x hx.2, setAt_ne _ _ hx.1]
      · intro x hx
        rw [List.map_cons, List.mem_cons] at hx
        by_cases hm : x ∈ ss.map (·.sym)
        · exact List.mem_cons_of_mem _ (h3 x hm)
        · have hx := hx.resolve_right hm
          rw [h2 x hm, hx, setAt_self]
          simp
      · intro l hl
        rw [h4 l hl, count_setAt f s.sym v l _ List.nodup_range (by simpa using hlt s (by simp)) (h0 s (by simp)) hl,
          List.count_cons]
        simp only [beq_iff_eq]
        omega

/-! ### Codes -/

/-- The codes a table holds are those the format asks for. -/
def HuffCode.Codes (h : HuffCode) : Prop :=
  ∀ s, lenOf h.sizes s ≠ 0 →
    h.codes.getD s 0 < 2 ^ lenOf h.sizes s ∧ lsb (lenOf h.sizes s) (h.codes.getD s 0) = huff h.sizes s

theorem assignCodes_getD (ls : List Nat) (next : Nat → Nat) (s : Nat) (h : lenOf ls s ≠ 0) :
    (assignCodes ls next).getD s 0 = revCode (lenOf ls s) 0 (next (lenOf ls s) + (ls.take s).count (lenOf ls s)) % 65536 := by
  induction ls generalizing next s with
  | nil => simp [lenOf] at h
  | cons l ls ih =>
    rw [assignCodes]
    cases s with
    | zero =>
      have : l ≠ 0 := by simpa [lenOf] using h
      rw [if_neg this]
      simp [lenOf]
    | succ s =>
      have e : lenOf (l :: ls) (s + 1) = lenOf ls s := by simp [lenOf]
      rw [e] at h ⊢
      rw [List.take_succ_cons, List.count_cons]
      split
      · rename_i hl
        rw [List.getD_cons_succ, ih next s h]
        have : (l == lenOf ls s) = false := by simp; omega
        simp [this]
      · rw [List.getD_cons_succ, ih _ s h]
        by_cases hll : lenOf ls s = l
        · rw [hll, setAt_self]
          simp only [beq_self_eq_true, if_true]
          rw [show next l + 1 + List.count l (List.take s ls) = next l + (List.count l (List.take s ls) + 1) by omega]
        · rw [setAt_ne _ _ hll]
          have : (l == lenOf ls s) = false := by simp; omega
          simp [this]

theorem firstCodes_eq (sizes : List Nat) (num : Nat → Nat) (limit : Nat) (h : ∀ i, 1 ≤ i → i ≤ limit → num i = sizes.count i)
    (i : Nat) (hi : i ≤ limit) : firstCodes num i = firstCode sizes i := by
  induction i with
  | zero => rfl
  | succ i ih =>
    cases i with
    | zero => simp [firstCodes, firstCode, blCount]
    | succ i =>
      rw [firstCodes, firstCode, ih (by omega), h _ (by omega) (by omega), blCount, if_neg (by omega), Nat.shiftLeft_eq]
      ring

theorem codes_ok (sizes : List Nat) (num : Nat → Nat) (limit : Nat) (hl : limit ≤ 15)
    (h : ∀ i, 1 ≤ i → i ≤ limit → num i = sizes.count i) (hs : ∀ l ∈ sizes, l ≤ limit) :
    HuffCode.Codes { sizes := sizes, codes := assignCodes sizes fun l => ((List.range (limit + 1)).map (firstCodes num)).getD l 0 } := by
  intro s h0
  simp only at h0 ⊢
  have hle : lenOf sizes s ≤ limit := hs _ (by
    rw [lenOf_eq (lenOf_lt h0)]
    exact List.getElem_mem _)
  have eg : ((List.range (limit + 1)).map (firstCodes num)).getD (lenOf sizes s) 0 = firstCode sizes (lenOf sizes s) := by
    rw [← firstCodes_eq sizes num limit h _ hle]
    have : lenOf sizes s < limit + 1 := by omega
    simp [List.getD, this]
  rw [assignCodes_getD _ _ _ h0, eg, revCode_eq, Nat.zero_mul, Nat.zero_add]
  have hlt := bval_lt (msb (lenOf sizes s) (firstCode sizes (lenOf sizes s) + (sizes.take s).count (lenOf sizes s)))
  rw [msb_length] at hlt
  have h16 : 2 ^ lenOf sizes s ≤ 2 ^ 15 := Nat.pow_le_pow_right (by norm_num) (by omega)
  rw [Nat.mod_eq_of_lt (by omega)]
  refine ⟨hlt, ?_⟩
  have := lsb_bval (msb (lenOf sizes s) (firstCode sizes (lenOf sizes s) + (sizes.take s).count (lenOf sizes s)))
  rw [msb_length] at this
  rw [this, huff, codeOf]

theorem staticTable_codes (sizes : List Nat) (hs : ∀ l ∈ sizes, l ≤ 15) : (staticTable sizes).Codes :=
  codes_ok sizes (fun l => sizes.count l) 15 le_rfl (fun _ _ _ => rfl) hs

/-! ### The whole table -/

theorem count_sizes (num : Nat → Nat) (limit l : Nat) (h1 : 1 ≤ l) (h2 : l ≤ limit) :
    ((List.range' 1 limit).flatMap fun i => List.replicate (num i) i).count l = num l := by
  rw [List.count_flatMap]
  have e : (List.count l ∘ fun i => List.replicate (num i) i) = fun i => if i = l then num i else 0 := by
    funext i
    simp [List.count_replicate]
  rw [e, sum_range', Finset.sum_ite_eq', if_pos (Finset.mem_Ico.2 ⟨h1, by omega⟩)]

theorem sizes_length (num : Nat → Nat) (limit : Nat) :
    ((List.range' 1 limit).flatMap fun i => List.replicate (num i) i).length = ∑ i ∈ Ico 1 (limit + 1), num i := by
  rw [List.length_flatMap]
  have e : (fun i => (List.replicate (num i) i).length) = num := by funext i; simp
  rw [e, sum_range', show 1 + limit = limit + 1 by omega]

theorem sizes_mem (num : Nat → Nat) (limit l : Nat) (h : l ∈ (List.range' 1 limit).flatMap fun i => List.replicate (num i) i) :
    1 ≤ l ∧ l ≤ limit := by
  obtain ⟨i, h1, h2⟩ := List.mem_flatMap.1 h
  have := List.eq_of_mem_replicate h2
  rw [List.mem_range'_1] at h1
  omega

theorem usedSyms_syms (count : Nat → Nat) (len : Nat) :
    (usedSyms count len).map (·.sym) = (List.range len).filter fun i => count i ≠ 0 := by
  rw [usedSyms, List.map_map]
  simp [Function.comp_def]

theorem usedSyms_sum (count : Nat → Nat) (len : Nat) :
    ((usedSyms count len).map (·.key)).sum = ∑ i ∈ range len, count i := by
  rw [usedSyms, List.map_map, ← sum_map_range]
  induction List.range len with
  | nil => rfl
  | cons x xs ih =>
    rw [List.filter_cons]
    split
    · rw [List.map_cons, List.sum_cons, List.map_cons, List.sum_cons, ih]
      rfl
    · rename_i h
      rw [ih, List.map_cons, List.sum_cons]
      simp at h
      omega

theorem getD_map_range (k : Nat) (g : Nat → Nat) (i : Nat) : ((List.range k).map g).getD i 0 = if i < k then g i else 0 := by
  by_cases h : i < k <;> simp [List.getD, h]

/-- The lengths before the limit is applied. -/
theorem countSizes_ok (syms : List SymFreq) (hsort : syms.Pairwise fun x y => x.key ≤ y.key) (hpos : ∀ x ∈ syms, 1 ≤ x.key)
    (hsum : (syms.map (·.key)).sum < 65536) (hlen : syms.length ≤ 65536) (limit : Nat) (hl : 1 ≤ limit) (hl2 : limit ≤ 32)
    (hn : syms.length ≤ 2 ^ limit) :
    ∃ A num num', (minRedundancy syms.length fun i => (syms.getD i default).key) = .ok A ∧ countSizes syms.length A = .ok num ∧
      enforceMaxCodeSize num syms.length limit = .ok num' ∧ ∑ i ∈ Ico 1 (limit + 1), num' i = syms.length ∧
      (2 ≤ syms.length → ∑ i ∈ Ico 1 (limit + 1), num' i * 2 ^ (limit - i) = 2 ^ limit) := by
  have hget : ∀ i < syms.length, syms.getD i default ∈ syms := fun i hi => by
    simp [List.getD, List.getElem?_eq_getElem hi]
  by_cases h2 : 2 ≤ syms.length
  · obtain ⟨A, a1, a2, a3⟩ := minRedundancy_ok (A0 := fun i => (syms.getD i default).key) h2 hlen
      (by rw [sum_getD]; exact hsum)
      (by
        intro i j hij hj
        by_cases e : i = j
        · subst e; exact le_rfl
        · have := List.pairwise_iff_getElem.1 hsort i j (by omega) hj (by omega)
          simpa [List.getD, List.getElem?_eq_getElem hj, List.getElem?_eq_getElem (show i < syms.length by omega)] using this)
      (fun i hi => hpos _ (hget i hi))
    have hall : ((List.range syms.length).map A).all (· ≤ 32) = true := by
      rw [List.all_eq_true]
      intro x hx
      obtain ⟨i, hi, rfl⟩ := List.mem_map.1 hx
      simpa using (a2 i (List.mem_range.1 hi)).2
    have hnum : ∀ i ∈ Ico 1 33, ((List.range 33).map fun l => ((List.range syms.length).map A).count l).getD i 0 =
        ((List.range syms.length).map A).count i := fun i hi => by
      have := Finset.mem_Ico.1 hi
      simp [List.getD, this.2]
    have hle : ∀ k ∈ (List.range syms.length).map A, k ≤ 32 := fun x hx => by
      obtain ⟨i, hi, rfl⟩ := List.mem_map.1 hx
      exact (a2 i (List.mem_range.1 hi)).2
    have h0 : 0 ∉ (List.range syms.length).map A := fun hx => by
      obtain ⟨i, hi, e⟩ := List.mem_map.1 hx
      have := (a2 i (List.mem_range.1 hi)).1
      omega
    obtain ⟨num', e1, e2, e3⟩ := enforce_ok
      (fun l => ((List.range 33).map fun l => ((List.range syms.length).map A).count l).getD l 0) syms.length limit hl hl2 h2 hn
      (by
        rw [Finset.sum_congr rfl hnum]
        have := sum_counts ((List.range syms.length).map A) 32 (fun _ => 1) (.inr h0) hle
        rw [List.map_map, sum_map_range] at this
        simpa using this)
      (by
        rw [Finset.sum_congr rfl (g := fun i => ((List.range syms.length).map A).count i * 2 ^ (32 - i))
          (fun i hi => by rw [hnum i hi])]
        rw [sum_counts ((List.range syms.length).map A) 32 (fun i => 2 ^ (32 - i)) (.inr h0) hle, List.map_map, sum_map_range]
        exact a3)
    refine ⟨A, _, num', a1, ?_, e1, e2, fun _ => e3⟩
    rw [countSizes]
    simp only [hall, if_true]
  · rcases syms with _ | ⟨x, _ | ⟨y, ys⟩⟩
    · refine ⟨_, _, _, rfl, rfl, rfl, ?_, fun h => by simp at h⟩
      refine Finset.sum_eq_zero fun i hi => ?_
      simp only [getD_map_range]
      split
      · rfl
      · rfl
    · refine ⟨_, _, _, rfl, rfl, rfl, ?_, fun h => by simp at h⟩
      rw [sum_Ico_head _ (by omega)]
      simp only [List.length_cons, List.length_nil, Nat.zero_add]
      have : ∀ i ∈ Ico (1 + 1) (limit + 1), ((List.range 33).map fun l => ((List.range 1).map
          (setAt (fun i => ([x].getD i default).key) 0 1)).count l).getD i 0 = 0 := fun i hi => by
        have := Finset.mem_Ico.1 hi
        rw [getD_map_range, if_pos (by omega), List.count_eq_zero]
        simp [setAt]
        omega
      rw [Finset.sum_eq_zero this]
      rfl
    · simp at h2

theorem optimizeTable_ok (count : Nat → Nat) (len limit : Nat) (hl : 1 ≤ limit) (hl2 : limit ≤ 15) (hlen : len ≤ 2 ^ limit) (h288 : len ≤ 288)
    (hsum : ∑ i ∈ range len, count i < 65536) :
    ∃ h, optimizeTable count len limit = .ok h ∧ h.sizes.length = len ∧ (∀ l ∈ h.sizes, l ≤ limit) ∧
      (∀ s < len, lenOf h.sizes s ≠ 0 ↔ count s ≠ 0) ∧ Usable h.sizes ∧ h.Codes := by
  have hperm := radixSort_perm (usedSyms count len)
  have hsym : ((radixSortP (usedSyms count len)).map (·.sym)).Perm ((List.range len).filter fun i => count i ≠ 0) := by
    rw [← usedSyms_syms]; exact hperm.map _
  have hcsum : ((radixSortP (usedSyms count len)).map (·.key)).sum < 65536 := by
    rw [(hperm.map (·.key)).sum_eq, usedSyms_sum]; exact hsum
  have hmem : ∀ x ∈ radixSortP (usedSyms count len), x.sym < len ∧ count x.sym ≠ 0 ∧ x.key = count x.sym := by
    intro x hx
    have := hperm.mem_iff.1 hx
    rw [usedSyms] at this
    obtain ⟨i, hi, rfl⟩ := List.mem_map.1 this
    simpa using hi
  have hlen2 : (radixSortP (usedSyms count len)).length ≤ len := by
    have := hsym.length_eq
    rw [List.length_map] at this
    rw [this]
    have := List.length_filter_le (fun i => decide (count i ≠ 0)) (List.range len)
    simpa using this
  have h2l : 2 ^ limit ≤ 2 ^ 15 := Nat.pow_le_pow_right (by norm_num) hl2
  have hsorted : (radixSortP (usedSyms count len)).Pairwise fun x y => x.key ≤ y.key := by
    refine radixSort_sorted _ fun x hx => ?_
    have h1 : x.key ≤ ((usedSyms count len).map (·.key)).sum := List.le_sum_of_mem (List.mem_map.2 ⟨x, hx, rfl⟩)
    rw [usedSyms_sum] at h1
    omega
  unfold optimizeTable optimizedSizes
  rw [radixSort_pure]
  generalize radixSortP (usedSyms count len) = syms at *
  obtain ⟨A, num, num', r1, r2, r3, r4, r5⟩ := countSizes_ok syms hsorted
    (fun x hx => by have := hmem x hx; omega) hcsum (by omega) limit hl (by omega) (by omega)
  have hnd : (syms.map (·.sym)).Nodup := hsym.nodup_iff.2 (List.nodup_range.filter _)
  obtain ⟨f', g1, g2, g3, g4⟩ := assignSizes_ok len syms.reverse
    ((List.range' 1 limit).flatMap fun i => List.replicate (num' i) i) (fun _ => 0)
    (by rw [sizes_length, List.length_reverse, r4]) (by rw [List.map_reverse, List.nodup_reverse]; exact hnd)
    (fun s hs => (hmem s (List.mem_reverse.1 hs)).1) h288 (fun _ _ => rfl)
  have hcount : ∀ i, 1 ≤ i → i ≤ limit → num' i = ((List.range len).map f').count i := by
    intro i h1 h2
    rw [g4 i (by omega), count_sizes num' limit i h1 h2]
    have : ((List.range len).map fun _ => 0).count i = 0 := by
      rw [List.count_eq_zero]
      simp
      omega
    omega
  have hms : ∀ s, s ∈ syms.reverse.map (·.sym) ↔ s < len ∧ count s ≠ 0 := by
    intro s
    rw [List.map_reverse, List.mem_reverse, hsym.mem_iff]
    simp
  have hle : ∀ l ∈ (List.range len).map f', l ≤ limit := by
    intro l hl
    obtain ⟨s, hs, rfl⟩ := List.mem_map.1 hl
    by_cases hm : s ∈ syms.reverse.map (·.sym)
    · exact (sizes_mem _ _ _ (g3 s hm)).2
    · rw [g2 s hm]; omega
  have hin : ∀ l ∈ (List.range len).map f', l < 33 := fun l hl => by have := hle l hl; omega
  simp only [r1, r2, r3, g1, inArr_ok hin, bind, Except.bind, pure, Except.pure]
  refine ⟨_, rfl, by simp, hle, ?_, ⟨fun l hl => le_trans (hle l hl) hl2, ?_⟩, codes_ok _ num' limit hl2 hcount hle⟩
  · intro s hs
    have e : lenOf ((List.range len).map f') s = f' s := by simp [lenOf, List.getD, hs]
    simp only [e]
    constructor
    · intro h0 hc
      have : s ∉ syms.reverse.map (·.sym) := fun hm => ((hms s).1 hm).2 hc
      exact h0 (g2 s this)
    · intro hc
      have := (sizes_mem _ _ _ (g3 s ((hms s).2 ⟨hs, hc⟩))).1
      omega
  · by_cases h2 : 2 ≤ syms.length
    · left
      unfold Complete
      have e := sum_counts ((List.range len).map f') limit (fun l => if l = 0 then 0 else 2 ^ (15 - l)) (.inl rfl) hle
      rw [← e]
      have e2 : ∀ i ∈ Ico 1 (limit + 1), ((List.range len).map f').count i * (if i = 0 then 0 else 2 ^ (15 - i)) =
          num' i * 2 ^ (limit - i) * 2 ^ (15 - limit) := fun i hi => by
        have := Finset.mem_Ico.1 hi
        rw [if_neg (by omega), ← hcount i this.1 (by omega), mul_assoc, ← pow_add,
          show limit - i + (15 - limit) = 15 - i by omega]
      rw [Finset.sum_congr rfl e2, ← Finset.sum_mul, r5 h2, ← pow_add, show limit + (15 - limit) = 15 by omega]
    · right
      have e := sum_counts ((List.range len).map f') limit (fun l => if l = 0 then 0 else 1) (.inl rfl) hle
      have e2 : ∀ i ∈ Ico 1 (limit + 1), ((List.range len).map f').count i * (if i = 0 then 0 else 1) = num' i := fun i hi => by
        have := Finset.mem_Ico.1 hi
        rw [if_neg (by omega), ← hcount i this.1 (by omega), mul_one]
      rw [Finset.sum_congr rfl e2, r4] at e
      have e3 : ∀ l : List Nat, used l = (l.map fun l => if l = 0 then 0 else 1).sum := fun l => by
        induction l with
        | nil => rfl
        | cons x xs ih =>
          rw [List.map_cons, List.sum_cons, ← ih, used, used, List.countP_cons]
          by_cases h : x = 0 <;> simp [h] <;> omega
      rw [e3, ← e]
      omega

end Npy
