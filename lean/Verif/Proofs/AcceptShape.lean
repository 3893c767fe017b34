import Verif.Props.Parse
import Verif.Spec.Accepted
/-! Everything the parser takes for a shape or for a `descr`. -/

namespace Npy
open Spec (White IsNumeral NoExtent NotDigitFirst Sign wrapped ShapeRead WhiteChar DescrRead)

theorem white_of_isSpace {ws : Bytes} (h : ∀ b ∈ ws, isSpace b = true) : White ws := fun b hb => (isSpace_iff b).1 (h b hb)

theorem whiteChar_iff (b : Byte) : WhiteChar b ↔ isSpace b = true := (isSpace_iff b).symm

/-- Leading white space. -/
theorem split_white (text : Bytes) : ∃ ws r, text = ws ++ r ∧ White ws ∧ (r = [] ∨ notSpaceHead r) ∧ text.dropWhile isSpace = r := by
  refine ⟨text.takeWhile isSpace, text.dropWhile isSpace, List.takeWhile_append_dropWhile.symm,
    white_of_isSpace fun b hb => List.mem_takeWhile_imp hb, ?_, rfl⟩
  match hd : text.dropWhile isSpace with
  | [] => exact .inl rfl
  | b :: r =>
    have := List.head?_dropWhile_not isSpace text
    rw [hd] at this
    exact .inr (by simpa [notSpaceHead] using this)

/-- Leading digits. -/
theorem split_digits (text : Bytes) : ∃ ds r, text = ds ++ r ∧ NotDigitFirst r ∧ (ds ≠ [] → IsNumeral ds (decValue ds)) ∧
    text.takeWhile isDigit = ds := by
  refine ⟨text.takeWhile isDigit, text.dropWhile isDigit, List.takeWhile_append_dropWhile.symm, ?_, fun hne => ?_, rfl⟩
  · intro b hb hc
    have := List.head?_dropWhile_not isDigit text
    rw [hb] at this
    rw [← isDigit_iff] at hc
    simp [hc] at this
  · exact ⟨hne, fun b hb => (isDigit_iff b).1 (List.mem_takeWhile_imp hb), (decValue_ofDigits _).symm⟩

/-- A sign in front of digits. -/
theorem extractSize_signed {s : IStream} (h : s.good = true) {ws ds r : Bytes} {n : Nat} {c : Byte} (hc : c = 43 ∨ c = 45)
    (hw : White ws) (hds : IsNumeral ds n) (hr : NotDigitFirst r) (hn : n < SIZE) :
    IStream.extractSize (s.withRest (ws ++ c :: (ds ++ r))) =
      (.ok (some (if c = 45 then (SIZE - n) % SIZE else n)), { s.withRest r with eof := r.isEmpty }) := by
  have hdig := numeral_isDigit hds
  have hv := numeral_decValue hds
  have hsp : isSpace c = false := by rcases hc with rfl | rfl <;> decide
  have hs : (c == 45 || c == 43) = true := by rcases hc with rfl | rfl <;> decide
  have hd := white_append_dropWhile (r := c :: (ds ++ r)) hw (by simp only [notSpaceHead]; exact hsp)
  have htw : (ds ++ r).takeWhile isDigit = ds := by
    rw [List.takeWhile_append_of_pos hdig, takeWhile_noDigit hr, List.append_nil]
  have hdw : (ds ++ r).dropWhile isDigit = r := by
    have : ds.dropWhile isDigit = [] := by rw [List.dropWhile_eq_nil_iff]; exact hdig
    rw [List.dropWhile_append, this]
    match r, notDigitFirst_head hr with
    | [], _ => rfl
    | b :: r, hb => simp only [NoDigitHead] at hb; simp [hb]
  have hne : ds.isEmpty = false := by
    cases ds with
    | nil => exact absurd rfl hds.nonempty
    | cons => rfl
  simp only [IStream.extractSize, IStream.withRest_good, h, if_true, IStream.withRest_rest, hd, hs, htw, hdw, hv, hne,
    Bool.false_eq_true, if_false, hn, beq_iff_eq]
  rfl

theorem extractSize_num {s : IStream} (h : s.good = true) {ws sg ds r : Bytes} {n : Nat} (hw : White ws) (hsg : Sign sg)
    (hds : IsNumeral ds n) (hr : NotDigitFirst r) (hn : n < 2 ^ 64) :
    IStream.extractSize (s.withRest (ws ++ (sg ++ (ds ++ r)))) =
      (.ok (some (wrapped sg n)), { s.withRest r with eof := r.isEmpty }) := by
  rcases hsg with rfl | rfl | rfl
  · have := extractSize_ok h hw hds (notDigitFirst_head hr) hn
    rw [List.append_assoc] at this
    exact this
  · exact extractSize_signed h (.inl rfl) hw hds hr hn
  · exact extractSize_signed h (.inr rfl) hw hds hr hn

theorem shapeRead_length {ns : List Nat} {text : Bytes} (h : ShapeRead ns text) : ns.length ≤ text.length := by
  induction h with
  | stop => simp
  | comma _ _ hd _ _ ih => simp only [List.length_append, List.length_cons]; omega
  | next _ _ hd _ _ _ _ ih =>
    have := List.length_pos_iff.2 hd.nonempty
    simp only [List.length_append, List.length_cons]; omega

/-- The loop over the extents finds what the specification says. -/
theorem readShapeLoop_read (cfg : Cfg) {ns : List Nat} {text : Bytes} (hl : ShapeRead ns text) {s : IStream}
    (h : s.good = true) (fuel : Nat) (hf : ns.length < fuel) (acc : List Nat) :
    (readShapeLoop cfg fuel acc (s.withRest text)).1 = .ok (acc ++ ns) := by
  obtain ⟨he, hfl⟩ := (IStream.good_iff s).1 h
  induction hl generalizing fuel acc with
  | stop hw hn =>
    obtain ⟨fuel, rfl⟩ : ∃ k, fuel = k + 1 := ⟨fuel - 1, by omega⟩
    rw [readShapeLoop_none cfg fuel acc (extractSize_noExtent h hw hn)]
    simp
  | @comma ws sg ds r n ns hw hsg hds hn hrest ih =>
    obtain ⟨fuel, rfl⟩ : ∃ k, fuel = k + 2 := ⟨fuel - 2, by simp at hf; omega⟩
    have hs : ({ s.withRest (44 :: r) with eof := (44 :: r).isEmpty } : IStream) = s.withRest (44 :: r) := by
      simp [IStream.withRest, he]
    obtain ⟨s', hs', hloop⟩ := readShapeLoop_skip cfg h fuel (acc ++ [wrapped sg n]) r
    have hnd : NotDigitFirst (44 :: r) := by
      intro b hb
      simp only [List.head?_cons, Option.some.injEq] at hb
      subst hb; decide
    conv_lhs => unfold readShapeLoop
    rw [SM.bind_ok (extractSize_num h hw hsg hds hnd hn)]
    simp only []
    rw [hs, SM.bind_ok (IStream.peek_cons h 44 r), if_pos rfl, SM.bind_ok (readChar_ok cfg h 44 r),
      SM.bind_ok hs', hloop, ih (fuel + 1) (by simp at hf; omega)]
    simp
  | @next ws sg ds r n ns hw hsg hds hn hnd h44 hrest ih =>
    obtain ⟨fuel, rfl⟩ : ∃ k, fuel = k + 2 := ⟨fuel - 2, by simp at hf; omega⟩
    conv_lhs => unfold readShapeLoop
    rw [SM.bind_ok (extractSize_num h hw hsg hds hnd hn)]
    simp only []
    match r, h44, hrest, ih with
    | [], _, hrest, _ =>
      have hns : ns = [] := List.length_eq_zero_iff.1 (Nat.le_zero.1 (shapeRead_length hrest))
      subst hns
      have hb : ({ s.withRest [] with eof := ([] : Bytes).isEmpty } : IStream).good = false := by simp [IStream.good]
      rw [SM.bind_ok (peek_bad hb), if_neg (by simp),
        readShapeLoop_none cfg fuel _ (by rw [extractSize_bad (by simp [IStream.good, IStream.setFail])])]
    | b :: r, h44, _, ih =>
      have hs : ({ s.withRest (b :: r) with eof := (b :: r).isEmpty } : IStream) = s.withRest (b :: r) := by
        simp [IStream.withRest, he]
      rw [hs, SM.bind_ok (IStream.peek_cons h b r), if_neg (by simpa using h44), ih (fuel + 1) (by simp at hf; omega)]
      simp

/-- Every text is taken for some shape. -/
theorem shapeRead_total (text : Bytes) : ∃ ns, ShapeRead ns text := by
  generalize hk : text.length = k
  induction k using Nat.strong_induction_on generalizing text with
  | h k ih =>
    obtain ⟨ws, r, rfl, hw, hsp, -⟩ := split_white text
    match r, hsp with
    | [], _ => exact ⟨[], .stop hw .empty⟩
    | c :: r, hsp =>
      have number : ∀ sg ds r2 : Bytes, Sign sg → IsNumeral ds (decValue ds) → NotDigitFirst r2 → decValue ds < 2 ^ 64 →
          c :: r = sg ++ (ds ++ r2) → ∃ ns, ShapeRead ns (ws ++ c :: r) := by
        intro sg ds r2 hsg hds hnd hn heq
        have hl := congrArg List.length heq
        have hp := List.length_pos_iff.2 hds.nonempty
        simp only [List.length_append, List.length_cons] at hl hk
        by_cases h44 : r2.head? = some 44
        · match r2, h44 with
          | b :: r3, h44 =>
            obtain rfl : b = 44 := by simpa using h44
            simp only [List.length_cons] at hl
            obtain ⟨ns, hns⟩ := ih r3.length (by omega) r3 rfl
            exact ⟨_ :: ns, by rw [heq]; exact ShapeRead.comma hw hsg hds hn hns⟩
        · obtain ⟨ns, hns⟩ := ih r2.length (by omega) r2 rfl
          exact ⟨_ :: ns, by rw [heq]; exact ShapeRead.next hw hsg hds hn hnd h44 hns⟩
      by_cases hs : c = 43 ∨ c = 45
      · obtain ⟨ds, r2, rfl, hnd, hds, -⟩ := split_digits r
        by_cases hne : ds = []
        · subst hne
          exact ⟨[], .stop hw (.sign hs hnd)⟩
        · rcases Nat.lt_or_ge (decValue ds) (2 ^ 64) with hn | hn
          · refine number [c] ds r2 ?_ (hds hne) hnd hn rfl
            rcases hs with rfl | rfl
            · exact .inr (.inl rfl)
            · exact .inr (.inr rfl)
          · exact ⟨[], .stop hw (.signBig hs (hds hne) hn hnd)⟩
      · obtain ⟨ds, r2, heq, hnd, hds, -⟩ := split_digits (c :: r)
        by_cases hne : ds = []
        · subst hne
          rw [List.nil_append] at heq
          refine ⟨[], .stop hw (.junk ?_ ?_ (fun h => hs (.inl h)) (fun h => hs (.inr h)))⟩
          · rw [← isSpace_iff]; simpa [notSpaceHead] using hsp
          · exact hnd c (by rw [← heq]; rfl)
        · rcases Nat.lt_or_ge (decValue ds) (2 ^ 64) with hn | hn
          · exact number [] ds r2 (.inl rfl) (hds hne) hnd hn (by simpa using heq)
          · exact ⟨[], by rw [heq]; exact .stop hw (.big (hds hne) hn hnd)⟩

theorem readShapeLoop_iff (cfg : Cfg) (text : Bytes) (ns : List Nat) :
    (readShapeLoop cfg (text.length + 1) [] (IStream.ofBytes text)).1 = .ok ns ↔ ShapeRead ns text := by
  have key : ∀ ns, ShapeRead ns text → (readShapeLoop cfg (text.length + 1) [] (IStream.ofBytes text)).1 = .ok ns := by
    intro ns h
    have hl := shapeRead_length h
    exact readShapeLoop_read cfg h (IStream.ofBytes_good text) (text.length + 1) (by omega) []
  refine ⟨fun h => ?_, key ns⟩
  obtain ⟨ns', h'⟩ := shapeRead_total text
  have := key ns' h'
  rw [h] at this
  simp only [Except.ok.injEq] at this
  rw [this]; exact h'

/-! ### `descr` -/

/-- `std::stoi` after white space and sign. -/
def stoiTail (neg : Bool) (r : Bytes) : Except Err Int :=
  if (r.takeWhile isDigit).isEmpty then .error (.throw (.invalidArgument .std))
  else if (if neg then -(decValue (r.takeWhile isDigit) : Int) else decValue (r.takeWhile isDigit)) < -(2 ^ 31) ∨
      (if neg then -(decValue (r.takeWhile isDigit) : Int) else decValue (r.takeWhile isDigit)) ≥ 2 ^ 31 then
    .error (.throw (.outOfRange .std))
  else .ok (if neg then -(decValue (r.takeWhile isDigit) : Int) else decValue (r.takeWhile isDigit))

theorem stoi_minus {text r : Bytes} (h : text.dropWhile isSpace = 45 :: r) : stoi text = stoiTail true r := by
  unfold stoi; rw [h]; rfl

theorem stoi_plus {text r : Bytes} (h : text.dropWhile isSpace = 43 :: r) : stoi text = stoiTail false r := by
  unfold stoi; rw [h]; rfl

theorem stoi_plain {text r : Bytes} (h : text.dropWhile isSpace = r) (h1 : r.head? ≠ some 43) (h2 : r.head? ≠ some 45) :
    stoi text = stoiTail false r := by
  unfold stoi; rw [h]
  match r, h1, h2 with
  | [], _, _ => rfl
  | c :: r, h1, h2 =>
    simp only []
    split
    · rename_i hq; rw [(List.cons.inj hq).1] at h2; simp at h2
    · rename_i hq; rw [(List.cons.inj hq).1] at h1; simp at h1
    · rfl

theorem stoiTail_num {ds r : Bytes} {n : Nat} (neg : Bool) (hds : IsNumeral ds n) (hr : NotDigitFirst r) :
    stoiTail neg (ds ++ r) = if (if neg then n ≤ 2 ^ 31 else n < 2 ^ 31) then .ok (if neg then -(n : Int) else n)
      else .error (.throw (.outOfRange .std)) := by
  have hdig := numeral_isDigit hds
  have hv := numeral_decValue hds
  have htw : (ds ++ r).takeWhile isDigit = ds := by
    rw [List.takeWhile_append_of_pos hdig, takeWhile_noDigit hr, List.append_nil]
  unfold stoiTail
  rw [htw, hv, if_neg (by simpa using hds.nonempty)]
  cases neg
  · simp only [Bool.false_eq_true, if_false]
    by_cases hb : n < 2 ^ 31
    · rw [if_pos hb, if_neg (by omega)]
    · rw [if_neg hb, if_pos (by omega)]
  · simp only [if_true]
    by_cases hb : n ≤ 2 ^ 31
    · rw [if_pos hb, if_neg (by omega)]
    · rw [if_neg hb, if_pos (by omega)]

theorem stoiTail_none {r : Bytes} (neg : Bool) (hr : NotDigitFirst r) : stoiTail neg r = .error (.throw (.invalidArgument .std)) := by
  unfold stoiTail
  rw [takeWhile_noDigit hr]
  rfl

/-- A number for `std::stoi`. -/
theorem stoi_num {ws sg ds r : Bytes} {n : Nat} (hw : White ws) (hsg : Sign sg) (hds : IsNumeral ds n) (hr : NotDigitFirst r) :
    stoi (ws ++ (sg ++ (ds ++ r))) =
      if (if sg = b!"-" then n ≤ 2 ^ 31 else n < 2 ^ 31) then .ok (if sg = b!"-" then -(n : Int) else n)
      else .error (.throw (.outOfRange .std)) := by
  have hdig := numeral_isDigit hds
  obtain ⟨d, ds', hd'⟩ := List.exists_cons_of_ne_nil hds.nonempty
  have hd0 := hdig d (by rw [hd']; simp)
  have h45 := digit_ne hd0 45 (by decide)
  have h43 := digit_ne hd0 43 (by decide)
  rcases hsg with rfl | rfl | rfl
  · show stoi (ws ++ (ds ++ r)) = _
    rw [stoi_plain (r := ds ++ r) (white_append_dropWhile hw (by rw [hd']; exact digit_not_space hd0)) (by rw [hd']; simpa using h43)
      (by rw [hd']; simpa using h45), stoiTail_num _ hds hr]
    simp
  · show stoi (ws ++ 43 :: (ds ++ r)) = _
    rw [stoi_plus (r := ds ++ r) (white_append_dropWhile hw (by simp only [notSpaceHead]; decide)), stoiTail_num _ hds hr]
    simp
  · show stoi (ws ++ 45 :: (ds ++ r)) = _
    rw [stoi_minus (r := ds ++ r) (white_append_dropWhile hw (by simp only [notSpaceHead]; decide)), stoiTail_num _ hds hr]
    simp

/-- A text without a number for `std::stoi`. -/
theorem stoi_none {ws sg r : Bytes} (hw : White ws) (hsg : Sign sg) (hr : NotDigitFirst r)
    (hh : sg = [] → (r = [] ∨ notSpaceHead r) ∧ r.head? ≠ some 43 ∧ r.head? ≠ some 45) :
    stoi (ws ++ (sg ++ r)) = .error (.throw (.invalidArgument .std)) := by
  rcases hsg with rfl | rfl | rfl
  · obtain ⟨h1, h2, h3⟩ := hh rfl
    show stoi (ws ++ r) = _
    have hd : (ws ++ r).dropWhile isSpace = r := by
      rcases h1 with rfl | h1
      · rw [List.append_nil, List.dropWhile_eq_nil_iff]
        exact fun b hb => (isSpace_iff b).2 (hw b hb)
      · exact white_append_dropWhile hw h1
    rw [stoi_plain (r := r) hd h2 h3, stoiTail_none _ hr]
  · show stoi (ws ++ 43 :: r) = _
    rw [stoi_plus (r := r) (white_append_dropWhile hw (by simp only [notSpaceHead]; decide)), stoiTail_none _ hr]
  · show stoi (ws ++ 45 :: r) = _
    rw [stoi_minus (r := r) (white_append_dropWhile hw (by simp only [notSpaceHead]; decide)), stoiTail_none _ hr]

/-- Every text either holds a number in front or does not. -/
theorem number_cases (text : Bytes) :
    (∃ ws sg ds r n, text = ws ++ (sg ++ (ds ++ r)) ∧ White ws ∧ Sign sg ∧ IsNumeral ds n ∧ NotDigitFirst r) ∨
    ∃ ws sg r, text = ws ++ (sg ++ r) ∧ White ws ∧ Sign sg ∧ NotDigitFirst r ∧
      (sg = [] → (r = [] ∨ notSpaceHead r) ∧ r.head? ≠ some 43 ∧ r.head? ≠ some 45) := by
  obtain ⟨ws, r, rfl, hw, hsp, -⟩ := split_white text
  match r, hsp with
  | [], hsp => exact .inr ⟨ws, [], [], rfl, hw, .inl rfl, by simp [NotDigitFirst], fun _ => ⟨hsp, by simp, by simp⟩⟩
  | c :: r, hsp =>
    by_cases hs : c = 43 ∨ c = 45
    · have hsg : Sign [c] := by rcases hs with rfl | rfl; exacts [.inr (.inl rfl), .inr (.inr rfl)]
      obtain ⟨ds, r2, rfl, hnd, hds, -⟩ := split_digits r
      by_cases hne : ds = []
      · subst hne
        exact .inr ⟨ws, [c], r2, rfl, hw, hsg, hnd, by simp⟩
      · exact .inl ⟨ws, [c], ds, r2, _, rfl, hw, hsg, hds hne, hnd⟩
    · obtain ⟨ds, r2, heq, hnd, hds, -⟩ := split_digits (c :: r)
      by_cases hne : ds = []
      · subst hne
        rw [List.nil_append] at heq
        refine .inr ⟨ws, [], c :: r, rfl, hw, .inl rfl, by rw [heq]; exact hnd, fun _ => ⟨hsp, ?_, ?_⟩⟩
        · simpa using fun h => hs (.inl h)
        · simpa using fun h => hs (.inr h)
      · exact .inl ⟨ws, [], ds, r2, _, by rw [heq]; rfl, hw, .inl rfl, hds hne, hnd⟩

theorem wrapped_int {sg : Bytes} {n : Nat} (hb : if sg = b!"-" then n ≤ 2 ^ 31 else n < 2 ^ 31) :
    (((if sg = b!"-" then -(n : Int) else n) % (SIZE : Int))).toNat = wrapped sg n := by
  have hS : SIZE = 2 ^ 64 := rfl
  unfold wrapped
  rw [hS]
  split at hb
  · rename_i hq
    rw [if_pos hq, if_pos hq]
    omega
  · rename_i hq
    rw [if_neg hq, if_neg hq]
    omega

/-- What a `descr` does. -/
theorem setDescr_cases (code : Bytes) :
    (∃ t e m, DescrRead code t e m ∧ ∀ h, setDescr h code = .ok { h with dtype := some t, endianness := some e, maxElementLength := some m }) ∨
    (code = [] ∧ ∀ h, setDescr h code = .error .ub) ∨
    (code ≠ [] ∧ ∃ x, ∀ h, setDescr h code = .error (.throw x)) := by
  match code with
  | [] => exact .inr (.inl ⟨rfl, fun h => rfl⟩)
  | [c] =>
    refine .inl ⟨.int8, .native, 0, ?_⟩
    have hu : UnknownDescr [c] := ⟨by simp, by simp, fun t ht big heq => by
      have hl : (1 : Nat) = _ := congrArg List.length heq
      unfold Spec.descr at hl
      rw [← decimal_eq_spec] at hl
      revert hl
      cases big <;> cases t <;> first | exact absurd rfl ht | decide⟩
    exact ⟨.unknown hu.nonempty hu.notU hu.unknown, setDescr_unknown hu⟩
  | c :: d :: rest =>
    by_cases hd : d = 85
    · subst hd
      have step : ∀ h, setDescr h (c :: 85 :: rest) = match stoi rest with
          | .ok v => .ok { h with dtype := some .unicode, endianness := some (if c = 62 then .big else .little), maxElementLength := some (v % (SIZE : Int)).toNat }
          | .error e => .error e := by
        intro h
        unfold setDescr
        simp only [List.head?_cons, if_true, List.drop_succ_cons, List.drop_zero]
        cases stoi rest <;> rfl
      rcases number_cases rest with ⟨ws, sg, ds, r, n, rfl, hw, hsg, hds, hr⟩ | ⟨ws, sg, r, rfl, hw, hsg, hr, hh⟩
      · have hst := stoi_num hw hsg hds hr
        by_cases hb : (if sg = b!"-" then n ≤ 2 ^ 31 else n < 2 ^ 31)
        · rw [if_pos hb] at hst
          refine .inl ⟨_, _, _, .text hw hsg hds hr hb, fun h => ?_⟩
          rw [step, hst]
          simp only [wrapped_int hb]
        · rw [if_neg hb] at hst
          exact .inr (.inr ⟨by simp, _, fun h => by rw [step, hst]⟩)
      · have hst := stoi_none hw hsg hr hh
        exact .inr (.inr ⟨by simp, _, fun h => by rw [step, hst]⟩)
    · by_cases hk : ∃ t, t ≠ DType.unicode ∧ ∃ big, c :: d :: rest = Spec.descr t big
      · obtain ⟨t, ht, big, heq⟩ := hk
        refine .inl ⟨t, Spec.reportedOrder t big, 0, heq ▸ .known ht, fun h => ?_⟩
        rw [heq, setDescr_fixed h t ht big]
        have : storedEndian t big = Spec.reportedOrder t big := by cases t <;> rfl
        rw [this]
      · have hu : UnknownDescr (c :: d :: rest) := ⟨by simp, by simpa using hd, fun t ht big heq => hk ⟨t, ht, big, heq⟩⟩
        exact .inl ⟨_, _, _, .unknown hu.nonempty hu.notU hu.unknown, setDescr_unknown hu⟩

/-- A text is taken for at most one type, order and length. -/
theorem setDescr_read {code : Bytes} {t : DType} {e : Endian} {m : Nat} (hr : DescrRead code t e m) (h : HeaderInfo) :
    setDescr h code = .ok { h with dtype := some t, endianness := some e, maxElementLength := some m } := by
  cases hr with
  | @known t big ht =>
    rw [setDescr_fixed h t ht big]
    have : storedEndian t big = Spec.reportedOrder t big := by cases t <;> rfl
    rw [this]
  | unknown h1 h2 h3 => exact setDescr_unknown ⟨h1, h2, h3⟩ h
  | text hw hsg hds hr hb =>
    have hst := stoi_num hw hsg hds hr
    rw [if_pos hb] at hst
    unfold setDescr
    simp only [List.head?_cons, if_true, List.drop_succ_cons, List.drop_zero, hst, wrapped_int hb]

end Npy
