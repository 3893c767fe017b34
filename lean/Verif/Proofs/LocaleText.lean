import Verif.Spec.Locale
import Verif.Proofs.Locale
import Verif.Proofs.DictLen
/-! The locale: the saved text, texts without separators, and commas. -/

namespace Npy

theorem sepOk_of {loc : Locale} (h : Spec.Readable loc) : SepOk loc := by
  match loc, h with
  | none, _ => trivial
  | some p, h =>
    refine ⟨?_, h.2⟩
    rw [← Bool.not_eq_true, isDigit_iff]
    exact h.1

/-! ### The text -/

theorem boundary_cons (k : Nat) (more : List Nat) (hk : 0 < k) (n : Nat) :
    Spec.boundary (k :: more) n ↔ n = k ∨ (k < n ∧ Spec.boundary (nextSizes (k :: more)) (n - k)) := by
  cases more with
  | nil =>
    simp only [Spec.boundary, nextSizes]
    constructor
    · rintro ⟨-, h1, h2⟩
      rcases Nat.lt_or_ge k n with h | h
      · exact .inr ⟨h, hk, by omega, Nat.dvd_sub h2 (dvd_refl k)⟩
      · exact .inl (Nat.le_antisymm h (Nat.le_of_dvd h1 h2))
    · rintro (rfl | ⟨h, -, h1, h2⟩)
      · exact ⟨hk, hk, dvd_rfl⟩
      · refine ⟨hk, by omega, ?_⟩
        have := (Nat.dvd_add_right (dvd_refl k)).2 h2
        rwa [Nat.add_sub_cancel' (by omega)] at this
  | cons l more =>
    simp only [Spec.boundary, nextSizes, hk, true_and]

theorem boundary_zero (more : List Nat) (n : Nat) : ¬ Spec.boundary (0 :: more) n := by
  cases more <;> simp [Spec.boundary]

theorem groupDigits_plain {sep : Byte} {sizes : List Nat} {ds : Bytes} (h : ∀ n < ds.length, ¬ Spec.boundary sizes n) :
    Spec.groupDigits sep sizes ds = ds := by
  induction ds with
  | nil => rfl
  | cons d ds ih =>
    cases ds with
    | nil => rfl
    | cons e es =>
      rw [Spec.groupDigits, if_neg (h _ (by simp)), ih (fun n hn => h n (by simp at hn ⊢; omega))]

theorem groupDigits_append {sep : Byte} {k : Nat} {more : List Nat} (hk : 0 < k) {back : Bytes} (hb : back.length = k) {front : Bytes}
    (hf : front ≠ []) : Spec.groupDigits sep (k :: more) (front ++ back) =
      Spec.groupDigits sep (nextSizes (k :: more)) front ++ sep :: back := by
  have hshort : Spec.groupDigits sep (k :: more) back = back := groupDigits_plain fun n hn hc => by
    rcases (boundary_cons k more hk n).1 hc with h | h <;> omega
  induction front with
  | nil => exact absurd rfl hf
  | cons d front ih =>
    cases front with
    | nil =>
      obtain ⟨e, es, rfl⟩ := List.exists_cons_of_ne_nil (show back ≠ [] by rintro rfl; simp at hb; omega)
      show Spec.groupDigits sep (k :: more) (d :: e :: es) = d :: sep :: e :: es
      rw [Spec.groupDigits, if_pos (by rw [boundary_cons k more hk]; exact .inl hb), hshort]
    | cons e es =>
      have h1 := ih (by simp)
      simp only [List.cons_append] at h1 ⊢
      rw [Spec.groupDigits, Spec.groupDigits, h1]
      have h2 : Spec.boundary (k :: more) (e :: (es ++ back)).length ↔
          Spec.boundary (nextSizes (k :: more)) (e :: es).length := by
        rw [boundary_cons k more hk, ← List.cons_append, List.length_append, hb, Nat.add_sub_cancel]
        simp
      by_cases h3 : Spec.boundary (nextSizes (k :: more)) (e :: es).length
      · rw [if_pos (h2.2 h3), if_pos h3]; rfl
      · rw [if_neg (fun h => h3 (h2.1 h)), if_neg h3]; rfl

theorem addGrouping_eq (sep : Byte) (fuel : Nat) {sizes : List Nat} (hsz : sizes ≠ []) (ds : Bytes) (hf : ds.length ≤ fuel) :
    addGrouping sep fuel sizes ds = Spec.groupDigits sep sizes ds := by
  induction fuel generalizing ds sizes with
  | zero =>
    rw [List.length_eq_zero_iff.1 (by omega : ds.length = 0)]
    rfl
  | succ fuel ih =>
    obtain ⟨k, more, rfl⟩ := List.exists_cons_of_ne_nil hsz
    unfold addGrouping
    by_cases hl : 0 < k ∧ k < ds.length
    · rw [if_pos hl, ih nextSizes_ne _ (by simp; omega)]
      have h1 := groupDigits_append (sep := sep) (more := more) hl.1 (back := ds.drop (ds.length - k)) (by simp; omega)
        (front := ds.take (ds.length - k)) (by
          intro h
          have := congrArg List.length h
          simp at this
          omega)
      rw [List.take_append_drop] at h1
      exact h1.symm
    · rw [if_neg hl, groupDigits_plain]
      intro n hn hc
      by_cases hk : 0 < k
      · rcases (boundary_cons k more hk n).1 hc with h | h <;> omega
      · obtain rfl : k = 0 := by omega
        exact boundary_zero more n hc

theorem decimalL_eq (loc : Locale) (n : Nat) : decimalL loc n = Spec.decimalIn loc n := by
  cases loc with
  | none => exact decimal_eq_spec n
  | some p =>
    rw [decimalL, Spec.decimalIn, ← decimal_eq_spec]
    exact addGrouping_eq p.sep _ (List.cons_ne_nil _ _) _ (Nat.le_refl _)

theorem dictionaryTextL_spec {loc : Locale} (d : Bytes) (f : Bool) (ns : List Nat) :
    dictionaryTextL loc d f ns = Spec.headerDictIn loc d f ns := by
  have h : shapeTextL loc ns = ((ns.map (Spec.decimalIn loc)).intersperse b!", ").flatten := by
    induction ns with
    | nil => rfl
    | cons n ns ih =>
      cases ns with
      | nil => simp [shapeTextL, decimalL_eq loc]
      | cons m ns =>
        rw [shapeTextL, ih]
        · simp [decimalL_eq loc]
        · simp
  simp only [dictionaryTextL, Spec.headerDictIn, Spec.pyBool, h, List.append_assoc, List.cons_append, List.nil_append]

/-! ### When the text is the standard one -/

theorem decimal_length_iff {n k : Nat} (hk : 0 < k) : (decimal n).length ≤ k ↔ n < 10 ^ k := by
  rw [decimal_eq_spec]
  refine ⟨fun h => ?_, spec_decimal_length hk⟩
  unfold Spec.decimal at h
  split at h
  · rename_i h0; rw [h0]; positivity
  · rw [List.length_map, List.length_reverse] at h
    exact (Nat.digits_length_le_iff (by omega) n).1 h

theorem addGrouping_length_ge (sep : Byte) (fuel : Nat) (sizes : List Nat) (ds : Bytes) :
    ds.length ≤ (addGrouping sep fuel sizes ds).length := by
  induction fuel generalizing ds sizes with
  | zero => exact Nat.le_refl _
  | succ fuel ih =>
    cases sizes with
    | nil => exact Nat.le_refl _
    | cons k more =>
      unfold addGrouping
      split
      · have := ih (nextSizes (k :: more)) (ds.take (ds.length - k))
        simp at this ⊢
        omega
      · exact Nat.le_refl _

theorem decimalL_length_ge (p : Numpunct) (n : Nat) : (decimal n).length ≤ (decimalL (some p) n).length :=
  addGrouping_length_ge _ _ _ _

theorem decimalL_length_gt {p : Numpunct} (hk : 0 < p.group) {n : Nat} (h : 10 ^ p.group ≤ n) :
    (decimal n).length < (decimalL (some p) n).length := by
  have hl : p.group < (decimal n).length := by
    by_contra hc
    have := (decimal_length_iff hk).1 (Nat.le_of_not_lt hc)
    omega
  rw [decimalL]
  obtain ⟨m, hm⟩ : ∃ m, (decimal n).length = m + 1 := ⟨(decimal n).length - 1, by omega⟩
  conv_rhs => rw [hm]
  rw [addGrouping, if_pos ⟨hk, hl⟩]
  have := addGrouping_length_ge p.sep m (nextSizes (p.group :: p.more)) ((decimal n).take ((decimal n).length - p.group))
  simp at this ⊢
  omega

theorem decimalL_small {p : Numpunct} (hk : 0 < p.group) {n : Nat} (h : n < 10 ^ p.group) :
    decimalL (some p) n = decimal n := by
  have hl := (decimal_length_iff hk).2 h
  rw [decimalL]
  cases hm : (decimal n).length with
  | zero => rfl
  | succ m => rw [addGrouping, if_neg (by omega)]

theorem shapeTextL_small {p : Numpunct} (hk : 0 < p.group) {ns : List Nat} (h : ∀ n ∈ ns, n < 10 ^ p.group) :
    shapeTextL (some p) ns = shapeText ns := by
  induction ns with
  | nil => rfl
  | cons n ns ih =>
    cases ns with
    | nil => exact decimalL_small hk (h n (by simp))
    | cons m ns =>
      rw [shapeTextL, shapeText, ih (fun a ha => h a (by simp [ha])), decimalL_small hk (h n (by simp))] <;> simp

theorem shapeTextL_longer {p : Numpunct} (hk : 0 < p.group) (ns : List Nat) :
    (shapeText ns).length ≤ (shapeTextL (some p) ns).length ∧
      ((∃ n ∈ ns, 10 ^ p.group ≤ n) → (shapeText ns).length < (shapeTextL (some p) ns).length) := by
  induction ns with
  | nil => simp [shapeText, shapeTextL]
  | cons n ns ih =>
    have h1 := decimalL_length_ge p n
    have h2 := fun h => decimalL_length_gt hk (n := n) h
    cases ns with
    | nil =>
      refine ⟨h1, ?_⟩
      rintro ⟨m, hm, h⟩
      simp only [List.mem_singleton] at hm
      subst hm
      exact h2 h
    | cons m ns =>
      rw [shapeTextL, shapeText]
      · simp only [List.length_append, List.length_cons, List.length_nil]
        refine ⟨by omega, ?_⟩
        rintro ⟨a, ha, h⟩
        rcases List.mem_cons.1 ha with rfl | ha
        · have := h2 h; omega
        · have := ih.2 ⟨a, ha, h⟩; omega
      · simp
      · simp

/-- Two headers with the same bytes have dictionaries of the same length: what follows the last brace is blank. -/
theorem dict_length_unique {a b ea eb : Bytes} (ha : 125 ∉ ea) (hb : 125 ∉ eb) (h : a ++ 125 :: ea = b ++ 125 :: eb) :
    a.length = b.length := by
  have key : ∀ {a b ea eb : Bytes}, 125 ∉ ea → 125 ∉ eb → a ++ 125 :: ea = b ++ 125 :: eb → a.length ≤ b.length := by
    intro a b ea eb _ hb h
    by_contra hc
    have h1 := congrArg (List.drop (b.length + 1)) h
    have h2 : (b ++ 125 :: eb).drop (b.length + 1) = eb := by
      rw [show b ++ 125 :: eb = (b ++ [125]) ++ eb by simp, List.drop_left' (by simp)]
    rw [h2, List.drop_append_of_le_length (by omega)] at h1
    exact hb (h1 ▸ List.mem_append_right _ (by simp))
  exact Nat.le_antisymm (key ha hb h) (key hb ha h.symm)

theorem dictionaryTextL_brace (loc : Locale) (d : Bytes) (f : Bool) (ns : List Nat) : ∃ a,
    dictionaryTextL loc d f ns = a ++ [125] ∧ a.length = (b!"{'descr': '" ++ d ++ b!"', 'fortran_order': " ++
      (if f then b!"True" else b!"False") ++ b!", 'shape': (").length + (shapeTextL loc ns).length +
      ((if ns.length = 1 then b!"," else []) ++ b!"), ").length := by
  refine ⟨b!"{'descr': '" ++ d ++ b!"', 'fortran_order': " ++ (if f then b!"True" else b!"False") ++
    b!", 'shape': (" ++ shapeTextL loc ns ++ ((if ns.length = 1 then b!"," else []) ++ b!"), "), ?_, ?_⟩
  · simp [dictionaryTextL]
  · rw [List.length_append, List.length_append]

theorem headerEnd_no_brace (n : Nat) : 125 ∉ headerEnd n := by
  unfold headerEnd
  rw [List.mem_append]
  rintro (h | h)
  · exact absurd (List.eq_of_mem_replicate h) (by decide)
  · simp at h

/-- Two locales give the same header only if they give equally long texts of the shape. -/
theorem headerBytesL_length {l1 l2 : Locale} {d : Bytes} {f : Bool} {ns : List Nat} {data : Bytes}
    (h : headerBytesL l1 d f ns ++ data = headerBytesL l2 d f ns ++ data) :
    (shapeTextL l1 ns).length = (shapeTextL l2 ns).length := by
  have h0 := List.append_cancel_right h
  obtain ⟨a, ha, hal⟩ := dictionaryTextL_brace l1 d f ns
  obtain ⟨b, hb, hbl⟩ := dictionaryTextL_brace l2 d f ns
  unfold headerBytesL staticHeader at h0
  have h1 := congrArg (List.drop 10) h0
  simp only [List.append_assoc] at h1
  rw [List.drop_left' (by rfl), List.drop_left' (by rfl), ha, hb] at h1
  have := dict_length_unique (ea := headerEnd _) (eb := headerEnd _) (headerEnd_no_brace _) (headerEnd_no_brace _)
    (by simpa only [List.append_assoc, List.cons_append, List.nil_append] using h1)
  omega

/-! ### Commas -/

/-- A comma after an extent is taken for a separator, and then the group after it is missing. -/
theorem extractSizeL_comma {p : Numpunct} (hp : p.sep = 44) (hk : 0 < p.group) {txt : Bytes} {gs : List Nat} {c : Nat}
    {ds : Bytes} (ht : Punct p txt gs c ds) {r : Bytes} (hr : r = [] ∨ ∃ r', r = 32 :: r') {s : IStream}
    (h : s.good = true) : (extractSizeL (some p) (s.withRest (txt ++ 44 :: r))).1 = .ok none := by
  have hpos := ht.pos
  have hs : scanDigits p.sep (44 :: r) gs c ds = ⟨gs ++ [c], 0, ds, false, r⟩ := by
    rw [scanDigits, if_pos hp.symm, if_neg (by omega), scanDigits_stop]
    rcases hr with rfl | ⟨r', rfl⟩
    · trivial
    · exact ⟨by decide, by rw [hp]; decide⟩
  have := extractSizeL_scan h (ws := []) (by simp [Spec.White]) ht hs
  rw [List.nil_append] at this
  rw [this, if_pos]
  refine ⟨by simp, ?_⟩
  show verifyFrom (p.group :: p.more) (gs ++ [c] ++ [0]).reverse = false
  rw [List.reverse_append, List.reverse_singleton, List.singleton_append]
  obtain ⟨g, r, hg⟩ := List.exists_cons_of_ne_nil (show (gs ++ [c]).reverse ≠ [] by simp)
  rw [hg, verifyFrom]
  · rw [show ((0 : Nat) == p.group) = false by simpa using (by omega : ¬ 0 = p.group)]
    rfl
  · simp

theorem readShapeLoopL_comma {l1 : Locale} {p : Numpunct} (hp : p.sep = 44) (hk : 0 < p.group) (cfg : Cfg)
    (hl : l1 = none ∨ l1 = some p) {ns : List Nat} (hn : ns ≠ []) :
    (readShapeLoopL (some p) cfg ((tupleText l1 ns).length + 1) [] (IStream.ofBytes (tupleText l1 ns))).1 = .ok [] := by
  have hsep : isDigit p.sep = false := by rw [hp]; decide
  obtain ⟨d, ds, rfl⟩ := List.exists_cons_of_ne_nil hn
  have ht : ∃ gs c, Punct p (decimalL l1 d) gs c (decimal d) := by
    rcases hl with rfl | rfl
    · exact ⟨_, _, punct_digits p hsep (isDigit_decimal d) (decimal_ne_nil d)⟩
    · obtain ⟨gs, c, h⟩ := punct_grouped p hsep (isDigit_decimal d) (decimal_ne_nil d)
      exact ⟨gs, c, h⟩
  obtain ⟨gs, c, ht⟩ := ht
  obtain ⟨r, hr, hr'⟩ : ∃ r, (r = [] ∨ ∃ r', r = 32 :: r') ∧ tupleText l1 (d :: ds) = decimalL l1 d ++ 44 :: r := by
    cases ds with
    | nil => exact ⟨[], .inl rfl, rfl⟩
    | cons e es =>
      refine ⟨32 :: shapeTextL l1 (e :: es), .inr ⟨_, rfl⟩, ?_⟩
      unfold tupleText
      rw [shapeTextL] <;> simp
  refine readShapeLoopL_stop (some p) cfg _ _ ?_
  have := extractSizeL_comma hp hk ht hr (IStream.ofBytes_good (tupleText l1 (d :: ds)))
  rw [← hr'] at this
  exact this

/-! ### Texts without separators between digits -/

theorem apart_suffix {sep : Byte} {a b : Bytes} (h : Spec.Apart sep (a ++ b)) : Spec.Apart sep b := by
  rintro x d y rfl
  exact h (a ++ x) d y (by simp)

theorem apart_prefix {sep : Byte} {a b : Bytes} (h : Spec.Apart sep (a ++ b)) : Spec.Apart sep a := by
  rintro x d y rfl
  exact h x d (y ++ b) (by simp)

theorem apart_of_suffix {sep : Byte} {a b : Bytes} (h : Spec.Apart sep b) (hs : a <:+ b) : Spec.Apart sep a := by
  obtain ⟨t, rfl⟩ := hs
  exact apart_suffix h

theorem scanDigits_apart {sep : Byte} (hsep : isDigit sep = false) (r : Bytes) (h : Spec.Apart sep r) (n : Nat)
    (ds : Bytes) (hn : 0 < n → r.head? ≠ some sep) : ∃ c tf,
    scanDigits sep r [] n ds = ⟨[], c, ds ++ r.takeWhile isDigit, tf, r.dropWhile isDigit⟩ ∧
      (tf = true → n = 0 ∧ r.takeWhile isDigit = []) := by
  induction r generalizing n ds with
  | nil => exact ⟨n, false, by simp [scanDigits], by simp⟩
  | cons c r ih =>
    by_cases hc : c = sep
    · subst hc
      have hn0 : n = 0 := by
        by_contra h0
        exact hn (by omega) rfl
      refine ⟨n, true, ?_, fun _ => ⟨hn0, ?_⟩⟩
      · rw [scanDigits, if_pos rfl, if_pos hn0, List.takeWhile_cons_of_neg (by simp [hsep]),
          List.dropWhile_cons_of_neg (by simp [hsep])]
        simp
      · rw [List.takeWhile_cons_of_neg (by simp [hsep])]
    · by_cases hd : isDigit c = true
      · obtain ⟨m, tf, h1, h2⟩ := ih (apart_suffix (a := [c]) h) (n + 1) (ds ++ [c]) (fun _ hh => by
          obtain ⟨r', rfl⟩ : ∃ r', r = sep :: r' := by
            cases r with
            | nil => simp at hh
            | cons a b => simp only [List.head?_cons, Option.some.injEq] at hh; exact ⟨b, by rw [hh]⟩
          exact h [] c r' rfl ((isDigit_iff c).1 hd))
        refine ⟨m, tf, ?_, fun ht => absurd (h2 ht).1 (by omega)⟩
        rw [scanDigits, if_neg hc, if_pos hd, h1, List.takeWhile_cons_of_pos hd, List.dropWhile_cons_of_pos hd]
        simp
      · refine ⟨n, false, ?_, by simp⟩
        rw [scanDigits, if_neg hc, if_neg hd, List.takeWhile_cons_of_neg (by simpa using hd),
          List.dropWhile_cons_of_neg (by simpa using hd)]
        simp

theorem extractSizeL_apart {p : Numpunct} (hsep : isDigit p.sep = false) (h43 : p.sep ≠ 43) (h45 : p.sep ≠ 45)
    {s : IStream} (h : Spec.Apart p.sep s.rest) : extractSizeL (some p) s = IStream.extractSize s := by
  unfold extractSizeL IStream.extractSize
  simp only []
  by_cases hg : s.good = true
  · rw [if_pos hg, if_pos hg]
    have hap : Spec.Apart p.sep (s.rest.dropWhile isSpace) := apart_of_suffix h (List.dropWhile_suffix _)
    match hr : s.rest.dropWhile isSpace with
    | [] => rfl
    | c :: r' =>
      rw [hr] at hap
      simp only []
      have hsg : ((c == 45 || c == 43) && c != p.sep) = (c == 45 || c == 43) := by
        by_cases h1 : c = p.sep
        · have e1 : (c == 45) = false := by rw [h1]; simpa using h45
          have e2 : (c == 43) = false := by rw [h1]; simpa using h43
          rw [e1, e2]; rfl
        · have : (c != p.sep) = true := by simpa using h1
          rw [this, Bool.and_true]
      rw [hsg]
      have hap1 : Spec.Apart p.sep (if (c == 45 || c == 43) = true then r' else c :: r') := by
        split
        · exact apart_suffix (a := [c]) hap
        · exact hap
      generalize (if (c == 45 || c == 43) = true then r' else c :: r') = r1 at hap1 ⊢
      obtain ⟨m, tf, e1, e2⟩ := scanDigits_apart hsep r1 hap1 0 [] (by omega)
      rw [e1]
      simp only [ne_eq, not_true_eq_false, false_and, if_false, List.nil_append]
      by_cases ht : (r1.takeWhile isDigit).isEmpty = true
      · rw [if_pos (by rw [ht]; simp), if_pos ht]
      · have : tf = false := by
          cases tf with
          | false => rfl
          | true => exact absurd (by rw [(e2 rfl).2]; rfl) ht
        rw [if_neg (by rw [this]; simpa using ht), if_neg ht]
  · rw [if_neg hg, if_neg hg]

/-- Nothing is put back into the stream. -/
def Consumes {α : Type} (x : IM α) : Prop := ∀ s : IStream, (x s).2.rest <:+ s.rest

theorem Consumes.bind {α β : Type} {x : IM α} {f : α → IM β} (hx : Consumes x) (hf : ∀ a, Consumes (f a)) : Consumes (x >>= f) := by
  intro s
  rw [SM.bind_apply]
  have h1 := hx s
  match h : x s with
  | (.ok a, s') => rw [h] at h1; exact (hf a s').trans h1
  | (.error e, s') => rw [h] at h1; exact h1

theorem Consumes.pure {α : Type} (a : α) : Consumes (Pure.pure a : IM α) := fun _ => List.suffix_refl _
theorem Consumes.fail {α : Type} (e : Err) : Consumes (SM.fail e : IM α) := fun _ => List.suffix_refl _
theorem Consumes.lift {α : Type} (e : Except Err α) : Consumes (SM.lift e : IM α) := fun _ => List.suffix_refl _
theorem Consumes.ite {α : Type} {c : Prop} [Decidable c] {x y : IM α} (hx : Consumes x) (hy : Consumes y) :
    Consumes (if c then x else y) := by split <;> assumption

theorem consumes_getc : Consumes IStream.getc := by
  intro s
  simp only [IStream.getc]
  split
  · split
    · exact List.suffix_refl _
    · rename_i h; rw [h]; exact List.suffix_cons _ _
  · exact List.suffix_refl _

theorem consumes_peek : Consumes IStream.peek := by
  intro s
  simp only [IStream.peek]
  split
  · split <;> exact List.suffix_refl _
  · exact List.suffix_refl _

theorem consumes_read (n : Nat) : Consumes (IStream.read n) := by
  intro s
  simp only [IStream.read]
  split
  · split
    · exact List.drop_suffix _ _
    · exact List.nil_suffix
  · exact List.suffix_refl _

theorem consumes_getUntil (n : Nat) (c : Byte) : Consumes (IStream.getUntil n c) := by
  intro s
  simp only [IStream.getUntil]
  split
  · exact List.drop_suffix _ _
  · exact List.suffix_refl _

theorem consumes_readChar (cfg : Cfg) (c : Byte) : Consumes (readChar cfg c) := by
  refine consumes_getc.bind fun a => ?_
  cases a with
  | none => exact .ite (.pure _) (.fail _)
  | some b => exact .ite (.pure _) (.ite (.pure _) (.fail _))

theorem consumes_readLit (cfg : Cfg) (c : Bytes) : Consumes (readLit cfg c) :=
  (consumes_read _).bind fun _ => .ite (.pure _) (.ite (.pure _) (.fail _))

theorem consumes_skip : Consumes skipWhitespace := by
  have h : ∀ fuel, Consumes (skipWhitespaceAux fuel) := by
    intro fuel
    induction fuel with
    | zero => exact .fail _
    | succ fuel ih =>
      refine consumes_peek.bind fun a => ?_
      cases a with
      | none => exact .pure _
      | some b => exact .ite (consumes_getc.bind fun _ => ih) (.pure _)
  intro s
  exact h (s.rest.length + 1) s

theorem consumes_readTo (c : Byte) : Consumes (readTo c) := by
  refine consumes_peek.bind fun a => ?_
  cases a with
  | none => exact consumes_getUntil _ _
  | some b => exact .ite (.pure _) (consumes_getUntil _ _)

theorem consumes_readString (cfg : Cfg) : Consumes (readString cfg) :=
  (consumes_readChar _ _).bind fun _ => (consumes_readTo _).bind fun _ => (consumes_readChar _ _).bind fun _ => .pure _

theorem consumes_readBool (cfg : Cfg) : Consumes (readBool cfg) := by
  refine consumes_peek.bind fun a => .ite ((consumes_readLit _ _).bind fun _ => .pure _) ?_
  exact consumes_peek.bind fun a => .ite ((consumes_readLit _ _).bind fun _ => .pure _) (.fail _)

theorem consumes_readShape (cfg : Cfg) : Consumes (readShape cfg) :=
  (consumes_readChar _ _).bind fun _ => (consumes_readTo _).bind fun _ => (consumes_readChar _ _).bind fun _ => .lift _

theorem consumes_extractSize : Consumes IStream.extractSize := by
  intro s
  unfold IStream.extractSize
  by_cases hg : s.good = true
  · simp only [hg, if_true]
    match hr : s.rest.dropWhile isSpace with
    | [] => exact List.nil_suffix
    | c :: r' =>
      have h1 : c :: r' <:+ s.rest := by rw [← hr]; exact List.dropWhile_suffix _
      have h2 : List.dropWhile isDigit (if (c == 45 || c == 43) = true then r' else c :: r') <:+ s.rest := by
        refine (List.dropWhile_suffix _).trans ?_
        by_cases hc : (c == 45 || c == 43) = true
        · rw [if_pos hc]; exact (List.suffix_cons _ _).trans h1
        · rw [if_neg hc]; exact h1
      simp only []
      generalize (if (c == 45 || c == 43) = true then r' else c :: r') = r1 at h2 ⊢
      by_cases ht : (r1.takeWhile isDigit).isEmpty = true
      · rw [if_pos ht]; exact h2
      · rw [if_neg ht]
        by_cases hv : decValue (r1.takeWhile isDigit) < SIZE
        · rw [if_pos hv]; exact h2
        · rw [if_neg hv]; exact h2
  · simp only [hg]; exact List.suffix_refl _

/-- On streams without a separator after a digit, the two do the same. -/
def Same {α : Type} (sep : Byte) (x y : IM α) : Prop := ∀ s : IStream, Spec.Apart sep s.rest → x s = y s

theorem Same.bind {α β : Type} {sep : Byte} {x y : IM α} {f g : α → IM β} (hx : Same sep x y) (hy : Consumes y)
    (hf : ∀ a, Same sep (f a) (g a)) : Same sep (x >>= f) (y >>= g) := by
  intro s hs
  rw [SM.bind_apply, SM.bind_apply, hx s hs]
  have h1 := hy s
  match h : y s with
  | (.ok a, s') => rw [h] at h1; exact hf a s' (apart_of_suffix hs h1)
  | (.error e, s') => rfl

theorem Same.refl {α : Type} {sep : Byte} (x : IM α) : Same sep x x := fun _ _ => rfl

theorem Same.ite {α : Type} {sep : Byte} {c : Prop} [Decidable c] {x y x' y' : IM α} (hx : Same sep x x')
    (hy : Same sep y y') : Same sep (if c then x else y) (if c then x' else y') := by split <;> assumption

section
variable {p : Numpunct} (hsep : isDigit p.sep = false) (h43 : p.sep ≠ 43) (h45 : p.sep ≠ 45)
include hsep h43 h45

theorem same_loop (cfg : Cfg) (fuel : Nat) (acc : List Nat) :
    Same p.sep (readShapeLoopL (some p) cfg fuel acc) (readShapeLoop cfg fuel acc) := by
  induction fuel generalizing acc with
  | zero => exact .refl _
  | succ fuel ih =>
    unfold readShapeLoopL readShapeLoop
    refine Same.bind (fun s hs => extractSizeL_apart hsep h43 h45 hs) consumes_extractSize fun a => ?_
    cases a with
    | none => exact .refl _
    | some n =>
      refine Same.bind (.refl _) consumes_peek fun a => .ite ?_ (ih _)
      exact Same.bind (.refl _) (consumes_readChar _ _) fun _ => Same.bind (.refl _) consumes_skip fun _ => ih _

/-- The text that `read_to` returns is part of the stream. -/
theorem readTo_apart {sep c : Byte} {s s' : IStream} {t : Bytes} (h : readTo c s = (.ok t, s'))
    (hs : Spec.Apart sep s.rest) : Spec.Apart sep t := by
  have hpre : t <+: s.rest := by
    have hu : ∀ s1 : IStream, s1.rest = s.rest → ∀ {t s'}, IStream.getUntil (BUFFER_SIZE - 1) c s1 = (.ok t, s') →
        t <+: s.rest := by
      intro s1 h1 t s' h
      simp only [IStream.getUntil] at h
      split at h
      · simp only [Prod.mk.injEq, Except.ok.injEq] at h
        rw [← h.1, ← h1]
        exact (List.takeWhile_prefix _).trans (List.take_prefix _ _)
      · simp only [Prod.mk.injEq, Except.ok.injEq] at h
        rw [← h.1]; exact List.nil_prefix
    unfold readTo at h
    rw [SM.bind_apply] at h
    have hk : (IStream.peek s).2.rest = s.rest := by
      simp only [IStream.peek]
      split
      · split <;> rfl
      · rfl
    match hp : IStream.peek s with
    | (.ok none, s1) => rw [hp] at h hk; exact hu s1 hk h
    | (.ok (some b), s1) =>
      rw [hp] at h hk
      simp only [] at h
      split at h
      · simp only [SM.pure_apply, Prod.mk.injEq, Except.ok.injEq] at h
        rw [← h.1]; exact List.nil_prefix
      · exact hu s1 hk h
    | (.error e, s1) => rw [hp] at h; simp at h
  obtain ⟨u, hu⟩ := hpre
  rw [← hu] at hs
  exact apart_prefix hs

theorem same_readShape (cfg : Cfg) : Same p.sep (readShapeL (some p) cfg) (readShape cfg) := by
  unfold readShapeL readShape
  refine Same.bind (.refl _) (consumes_readChar _ _) fun _ => ?_
  intro s hs
  rw [SM.bind_apply, SM.bind_apply]
  match h : readTo 41 s with
  | (.error e, s') => rfl
  | (.ok t, s') =>
    have ht := readTo_apart hsep h43 h45 h hs
    simp only []
    rw [same_loop hsep h43 h45 cfg _ _ (IStream.ofBytes t) ht]

theorem same_items (cfg : Cfg) (fuel : Nat) (h : HeaderInfo) :
    Same p.sep (parseItemsL (some p) cfg fuel h) (parseItems cfg fuel h) := by
  have hv : ∀ h key, Same p.sep (parseValueL (some p) cfg h key) (parseValue cfg h key) := fun h key =>
    .ite (.refl _) (.ite (.refl _) (.ite (.bind (same_readShape hsep h43 h45 cfg) (consumes_readShape cfg) fun _ => .refl _)
      (.refl _)))
  have tv : ∀ h key, Consumes (parseValue cfg h key) := fun h key =>
    .ite ((consumes_readString _).bind fun _ => .lift _) (.ite ((consumes_readBool _).bind fun _ => .pure _)
      (.ite ((consumes_readShape _).bind fun _ => .pure _) (.fail _)))
  have hi : ∀ h, Same p.sep (parseItemL (some p) cfg h) (parseItem cfg h) := fun h =>
    .bind (.refl _) consumes_skip fun _ => .bind (.refl _) (consumes_readString _) fun key => .bind (.refl _) consumes_skip fun _ =>
      .bind (.refl _) (consumes_readChar _ _) fun _ => .bind (.refl _) consumes_skip fun _ => .bind (hv h key) (tv h key)
        fun _ => .refl _
  have ti : ∀ h, Consumes (parseItem cfg h) := fun h =>
    consumes_skip.bind fun _ => (consumes_readString _).bind fun key => consumes_skip.bind fun _ => (consumes_readChar _ _).bind
      fun _ => consumes_skip.bind fun _ => (tv h key).bind fun _ => (consumes_readChar _ _).bind fun _ => consumes_skip.bind
        fun _ => .pure _
  induction fuel generalizing h with
  | zero => exact .refl _
  | succ fuel ih =>
    unfold parseItemsL parseItems
    exact .bind (.refl _) consumes_peek fun _ => .ite (.refl _) (.bind (hi h) (ti h) fun h' => ih h')

theorem parseHeaderL_apart (cfg : Cfg) (dict : Bytes) (hd : Spec.Apart p.sep dict) :
    parseHeaderL (some p) cfg dict = parseHeader cfg dict := by
  unfold parseHeaderL parseHeader
  congr 1
  refine Same.bind (sep := p.sep) (.refl _) (consumes_readChar _ _) (fun _ => ?_) (IStream.ofBytes dict) hd
  intro s hs
  rw [SM.bind_apply, SM.bind_apply, same_items hsep h43 h45 cfg _ _ s hs]

end

end Npy
