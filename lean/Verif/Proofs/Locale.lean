import Verif.Model.Locale
import Verif.Proofs.Npy
/-! The locale: grouped digits. -/

namespace Npy

/-! ### Without grouping -/

theorem readShapeLoopL_none (cfg : Cfg) (fuel : Nat) (acc : List Nat) :
    readShapeLoopL none cfg fuel acc = readShapeLoop cfg fuel acc := by
  induction fuel generalizing acc with
  | zero => rfl
  | succ fuel ih =>
    unfold readShapeLoopL readShapeLoop
    simp only [ih]
    rfl

theorem readShapeL_none (cfg : Cfg) : readShapeL none cfg = readShape cfg := by
  unfold readShapeL readShape
  simp only [readShapeLoopL_none]

theorem parseItemL_none (cfg : Cfg) (h : HeaderInfo) : parseItemL none cfg h = parseItem cfg h := by
  unfold parseItemL parseItem parseValueL parseValue
  simp only [readShapeL_none]

theorem parseItemsL_none (cfg : Cfg) (fuel : Nat) (h : HeaderInfo) :
    parseItemsL none cfg fuel h = parseItems cfg fuel h := by
  induction fuel generalizing h with
  | zero => rfl
  | succ fuel ih =>
    unfold parseItemsL parseItems
    simp only [ih, parseItemL_none]

theorem parseHeaderL_none (cfg : Cfg) : parseHeaderL none cfg = parseHeader cfg := by
  funext d
  unfold parseHeaderL parseHeader
  simp only [parseItemsL_none]

theorem readNpyHeaderL_none (cfg : Cfg) : readNpyHeaderL none cfg = readNpyHeader cfg := by
  unfold readNpyHeaderL readNpyHeader
  simp only [parseHeaderL_none]
  rfl

theorem loadL_none {α : Type} (cfg : Cfg) (ops : ElemOps α) : loadL none cfg ops = load cfg ops := by
  unfold loadL load
  rw [readNpyHeaderL_none]

theorem shapeTextL_none (ns : List Nat) : shapeTextL none ns = shapeText ns := by
  induction ns with
  | nil => rfl
  | cons n ns ih =>
    cases ns with
    | nil => rfl
    | cons m ns => rw [shapeTextL, shapeText, ih] <;> simp [decimalL]

theorem dictionaryTextL_none (d : Bytes) (f : Bool) (ns : List Nat) :
    dictionaryTextL none d f ns = dictionaryText d f ns := by
  rw [dictionaryTextL, dictionaryText, shapeTextL_none]

theorem saveL_none {α : Type} (cfg : Cfg) (ops : ElemOps α) (t : Tensor α) (e : Endian) (o : OStream) :
    saveL none cfg ops t e o = save cfg ops t e o := by
  unfold saveL save writeNpyHeaderL writeNpyHeader
  simp only [dictionaryTextL_none]
  rfl

/-! ### Scanning -/

theorem scanDigits_digits {sep : Byte} (hsep : isDigit sep = false) {ds : Bytes} (hd : ∀ b ∈ ds, isDigit b = true)
    (rest : Bytes) (gs : List Nat) (c : Nat) (acc : Bytes) :
    scanDigits sep (ds ++ rest) gs c acc = scanDigits sep rest gs (c + ds.length) (acc ++ ds) := by
  induction ds generalizing c acc with
  | nil => simp
  | cons d ds ih =>
    have h1 := hd d (by simp)
    have hne : d ≠ sep := by rintro rfl; simp [h1] at hsep
    rw [List.cons_append, scanDigits, if_neg hne, if_pos h1, ih (fun b hb => hd b (by simp [hb]))]
    simp only [List.append_assoc, List.cons_append, List.nil_append, List.length_cons]
    congr 1
    omega

/-- Text that a stream in the locale reads as digits `ds`: groups are closed properly. -/
structure Punct (p : Numpunct) (txt : Bytes) (gs : List Nat) (c : Nat) (ds : Bytes) : Prop where
  first : ∃ d t, txt = d :: t ∧ isDigit d = true
  pos : 0 < c
  scan : ∀ rest, scanDigits p.sep (txt ++ rest) [] 0 [] = scanDigits p.sep rest gs c ds
  groups : gs = [] ∨ verifyGrouping p (gs ++ [c]) = true
  nonempty : ds ≠ []

theorem punct_digits (p : Numpunct) (hsep : isDigit p.sep = false) {ds : Bytes} (hd : ∀ b ∈ ds, isDigit b = true)
    (hne : ds ≠ []) : Punct p ds [] ds.length ds where
  first := by
    obtain ⟨d, t, rfl⟩ := List.exists_cons_of_ne_nil hne
    exact ⟨d, t, rfl, hd d (by simp)⟩
  pos := List.length_pos_iff.2 hne
  scan := fun rest => by rw [scanDigits_digits hsep hd]; simp
  groups := .inl rfl
  nonempty := hne

/-- Groups are closed properly: `gs` closed groups and one of `c` digits, or there are no groups and no need for any. -/
def GroupsOk (sizes gs : List Nat) (c : Nat) : Prop :=
  (gs = [] ∧ (sizes.head? = some 0 ∨ ∀ k ∈ sizes.head?, c ≤ k)) ∨ verifyFrom sizes (gs ++ [c]).reverse = true

theorem verify_snoc {k : Nat} {more gs : List Nat} {c : Nat} (h1 : GroupsOk (nextSizes (k :: more)) gs c) :
    verifyFrom (k :: more) (gs ++ [c] ++ [k]).reverse = true := by
  have h2 : verifyFrom (nextSizes (k :: more)) (gs ++ [c]).reverse = true := by
    rcases h1 with ⟨rfl, h⟩ | h
    · cases more with
      | nil => simpa [nextSizes, verifyFrom] using h
      | cons l more => simpa [nextSizes, verifyFrom] using h
    · exact h
  rw [List.reverse_append, List.reverse_singleton, List.singleton_append]
  obtain ⟨g, r, hg⟩ := List.exists_cons_of_ne_nil (show (gs ++ [c]).reverse ≠ [] by simp)
  rw [hg] at h2 ⊢
  rw [verifyFrom, h2]
  · simp
  · simp

theorem nextSizes_ne {k : Nat} {more : List Nat} : nextSizes (k :: more) ≠ [] := by
  cases more <;> simp [nextSizes]

/-- What `__add_grouping` produces is read back. -/
theorem scan_grouped (sep : Byte) (hsep : isDigit sep = false) (fuel : Nat) {sizes : List Nat} (hsz : sizes ≠ []) {ds : Bytes}
    (hd : ∀ b ∈ ds, isDigit b = true) (hne : ds ≠ []) (hf : ds.length ≤ fuel) :
    ∃ gs c, (∃ d t, addGrouping sep fuel sizes ds = d :: t ∧ isDigit d = true) ∧ 0 < c ∧
      (∀ rest, scanDigits sep (addGrouping sep fuel sizes ds ++ rest) [] 0 [] = scanDigits sep rest gs c ds) ∧
      GroupsOk sizes gs c := by
  induction fuel generalizing ds sizes with
  | zero => exact absurd (List.length_eq_zero_iff.1 (by omega)) hne
  | succ fuel ih =>
    obtain ⟨k, more, rfl⟩ := List.exists_cons_of_ne_nil hsz
    unfold addGrouping
    by_cases hl : 0 < k ∧ k < ds.length
    · rw [if_pos hl]
      have hfd : ∀ b ∈ ds.take (ds.length - k), isDigit b = true := fun b hb => hd b (List.mem_of_mem_take hb)
      have hbd : ∀ b ∈ ds.drop (ds.length - k), isDigit b = true := fun b hb => hd b (List.mem_of_mem_drop hb)
      have hfl : (ds.take (ds.length - k)).length = ds.length - k := by simp
      have hbl : (ds.drop (ds.length - k)).length = k := by simp; omega
      have hfne : ds.take (ds.length - k) ≠ [] := by
        intro h; rw [h] at hfl; simp at hfl; omega
      obtain ⟨gs, c, ⟨d, t, h1, h2⟩, hpos, hscan, hg⟩ := ih (nextSizes_ne (k := k) (more := more)) hfd hfne (by omega)
      have hds : ds.take (ds.length - k) ++ ds.drop (ds.length - k) = ds := List.take_append_drop _ _
      refine ⟨gs ++ [c], k, ⟨d, t ++ sep :: ds.drop (ds.length - k), by rw [h1]; rfl, h2⟩, hl.1, ?_, .inr (verify_snoc hg)⟩
      intro rest
      rw [List.append_assoc, hscan, List.cons_append, scanDigits, if_pos rfl,
        if_neg (by omega), scanDigits_digits hsep hbd, hbl, hds]
      simp
    · rw [if_neg hl]
      have hp := punct_digits ⟨sep, 1, []⟩ hsep hd hne
      refine ⟨[], ds.length, hp.first, hp.pos, hp.scan, .inl ⟨rfl, ?_⟩⟩
      by_cases h0 : k = 0
      · exact .inl (by rw [h0]; rfl)
      · right
        intro k' hk'
        simp only [List.head?_cons, Option.mem_def, Option.some.injEq] at hk'
        omega

theorem punct_grouped (p : Numpunct) (hsep : isDigit p.sep = false) {ds : Bytes}
    (hd : ∀ b ∈ ds, isDigit b = true) (hne : ds ≠ []) :
    ∃ gs c, Punct p (addGrouping p.sep ds.length (p.group :: p.more) ds) gs c ds := by
  obtain ⟨gs, c, h1, h2, h3, h4⟩ := scan_grouped p.sep hsep ds.length (List.cons_ne_nil p.group p.more) hd hne (Nat.le_refl _)
  refine ⟨gs, c, h1, h2, h3, ?_, hne⟩
  rcases h4 with ⟨h, -⟩ | h
  · exact .inl h
  · exact .inr h

/-- Neither a digit nor the separator at the front. -/
def NoNumHead (p : Numpunct) : Bytes → Prop
  | [] => True
  | b :: _ => isDigit b = false ∧ b ≠ p.sep

theorem scanDigits_stop {p : Numpunct} {r : Bytes} (hr : NoNumHead p r) (gs : List Nat) (c : Nat) (ds : Bytes) :
    scanDigits p.sep r gs c ds = ⟨gs, c, ds, false, r⟩ := by
  match r, hr with
  | [], _ => rfl
  | b :: r, hb => rw [scanDigits, if_neg hb.2, if_neg (by simp [hb.1])]

theorem extractSizeL_scan {p : Numpunct} {s : IStream} (h : s.good = true) {ws txt r : Bytes} (hws : Spec.White ws)
    {gs : List Nat} {c : Nat} {ds : Bytes} (hp : Punct p txt gs c ds) {sc : DigitScan}
    (hsc : scanDigits p.sep r gs c ds = sc) :
    extractSizeL (some p) (s.withRest (ws ++ txt ++ r)) =
      if sc.groups ≠ [] ∧ verifyGrouping p (sc.groups ++ [sc.count]) = false then
        (.ok none, ({ s.withRest sc.rest with eof := sc.rest.isEmpty } : IStream).setFail)
      else if sc.testfail || sc.digits.isEmpty then
        (.ok none, ({ s.withRest sc.rest with eof := sc.rest.isEmpty } : IStream).setFail)
      else if decValue sc.digits < SIZE then (.ok (some (decValue sc.digits)), { s.withRest sc.rest with eof := sc.rest.isEmpty })
      else (.ok none, ({ s.withRest sc.rest with eof := sc.rest.isEmpty } : IStream).setFail) := by
  obtain ⟨d, t, rfl, hd⟩ := hp.first
  have hdrop : (ws ++ (d :: t) ++ r).dropWhile isSpace = d :: (t ++ r) := by
    rw [List.append_assoc, dropWhile_all _ (white_isSpace hws), List.cons_append,
      List.dropWhile_cons_of_neg (by simp [digit_not_space hd])]
  have h45 : (d == 45) = false := by simpa using digit_ne hd 45 (by decide)
  have h43 : (d == 43) = false := by simpa using digit_ne hd 43 (by decide)
  have h1 := hp.scan r
  rw [hsc, List.cons_append] at h1
  simp only [extractSizeL, IStream.withRest_good, h, if_true, IStream.withRest_rest, hdrop, h45, h43, Bool.or_self,
    Bool.false_and, Bool.false_eq_true, if_false, h1]
  rfl

theorem extractSizeL_ok {p : Numpunct} {s : IStream} (h : s.good = true) {ws txt r : Bytes} (hws : Spec.White ws)
    {gs : List Nat} {c : Nat} {ds : Bytes} (hp : Punct p txt gs c ds) (hr : NoNumHead p r) (hn : decValue ds < SIZE) :
    extractSizeL (some p) (s.withRest (ws ++ txt ++ r)) =
      (.ok (some (decValue ds)), { s.withRest r with eof := r.isEmpty }) := by
  rw [extractSizeL_scan h hws hp (scanDigits_stop hr _ _ _)]
  rw [if_neg (by
    rintro ⟨h1, h2⟩
    rcases hp.groups with h3 | h3
    · exact h1 h3
    · rw [h3] at h2; exact absurd h2 (by simp)), if_neg (by simpa using hp.nonempty), if_pos hn]

/-- The stream of a locale reads `txt` as the number `n`. -/
def ReadsNumber (loc : Locale) (txt : Bytes) (n : Nat) : Prop :=
  ∀ {s : IStream}, s.good = true → ∀ {ws r : Bytes}, Spec.White ws → (r = [] ∨ ∃ r', r = 44 :: r') →
    extractSizeL loc (s.withRest (ws ++ txt ++ r)) = (.ok (some n), { s.withRest r with eof := r.isEmpty })

/-- What the separator of a locale may be for its own files to be readable. -/
def SepOk : Locale → Prop
  | none => True
  | some p => isDigit p.sep = false ∧ p.sep ≠ 44 ∧ p.sep ≠ 41 ∧ 0 < p.group

theorem readsAs_decimal {loc : Locale} (hl : SepOk loc) {n : Nat} (hn : n < SIZE) : ReadsNumber loc (decimal n) n := by
  intro s hs ws r hws hr
  match loc, hl with
  | none, _ =>
    refine extractSize_ok hs hws (isNumeral_decimal n) ?_ hn
    rcases hr with rfl | ⟨r', rfl⟩
    · trivial
    · show isDigit 44 = false; decide
  | some p, hl =>
    have := extractSizeL_ok hs hws (punct_digits p hl.1 (isDigit_decimal n) (decimal_ne_nil n)) (r := r) (by
      rcases hr with rfl | ⟨r', rfl⟩
      · trivial
      · exact ⟨by decide, fun h => hl.2.1 h.symm⟩) (by rw [decValue_decimal]; exact hn)
    rw [decValue_decimal] at this
    exact this

theorem readsAs_decimalL {loc : Locale} (hl : SepOk loc) {n : Nat} (hn : n < SIZE) : ReadsNumber loc (decimalL loc n) n := by
  match loc, hl with
  | none, hl =>
    intro s hs ws r hws hr
    exact readsAs_decimal (loc := none) hl hn hs hws hr
  | some p, hl =>
    intro s hs ws r hws hr
    obtain ⟨gs, c, hp⟩ := punct_grouped p hl.1 (isDigit_decimal n) (decimal_ne_nil n)
    have := extractSizeL_ok hs hws hp (r := r) (by
      rcases hr with rfl | ⟨r', rfl⟩
      · trivial
      · exact ⟨by decide, fun h => hl.2.1 h.symm⟩) (by rw [decValue_decimal]; exact hn)
    rw [decValue_decimal] at this
    exact this

/-! ### The loop over the extents -/

theorem extractSizeL_bad (loc : Locale) {s : IStream} (h : s.good = false) :
    extractSizeL loc s = (.ok none, s.setFail) := by
  cases loc with
  | none => exact extractSize_bad h
  | some p => simp [extractSizeL, h]

theorem extractSizeL_white (loc : Locale) {s : IStream} (h : s.good = true) {ws : Bytes} (hws : Spec.White ws) :
    extractSizeL loc (s.withRest ws) = (.ok none, (s.withRest []).setEofFail) := by
  cases loc with
  | none => exact extractSize_white h hws
  | some p =>
    have hdrop : ws.dropWhile isSpace = [] := by
      have := dropWhile_all [] (white_isSpace hws)
      simpa using this
    simp only [extractSizeL, IStream.withRest_good, h, if_true, IStream.withRest_rest, hdrop]
    rfl

theorem readShapeLoopL_stop (loc : Locale) (cfg : Cfg) {s : IStream} (fuel : Nat) (acc : List Nat)
    (h : (extractSizeL loc s).1 = .ok none) : (readShapeLoopL loc cfg (fuel + 1) acc s).1 = .ok acc := by
  unfold readShapeLoopL
  rw [SM.bind_ok (a := none) (s' := (extractSizeL loc s).2) (by rw [← h])]
  rfl

theorem extractSizeL_drop (loc : Locale) {s : IStream} (h : s.good = true) {rest b r}
    (hd : rest.dropWhile isSpace = b :: r) (hb : isSpace b = false) :
    extractSizeL loc (s.withRest (b :: r)) = extractSizeL loc (s.withRest rest) := by
  have hd' : (b :: r).dropWhile isSpace = b :: r := List.dropWhile_cons_of_neg (by simp [hb])
  cases loc with
  | none =>
    simp only [extractSizeL, IStream.extractSize, IStream.withRest_good, h, if_true, IStream.withRest_rest, hd, hd']
    rfl
  | some p =>
    simp only [extractSizeL, IStream.withRest_good, h, if_true, IStream.withRest_rest, hd, hd']
    rfl

theorem readShapeLoopL_skip (loc : Locale) (cfg : Cfg) {s : IStream} (h : s.good = true) (fuel : Nat) (acc : List Nat)
    (rest : Bytes) :
    ∃ s', skipWhitespace (s.withRest rest) = (.ok (), s') ∧
      (readShapeLoopL loc cfg (fuel + 1) acc s').1 = (readShapeLoopL loc cfg (fuel + 1) acc (s.withRest rest)).1 := by
  have hsplit : rest = rest.takeWhile isSpace ++ rest.dropWhile isSpace := List.takeWhile_append_dropWhile.symm
  have hw : ∀ b ∈ rest.takeWhile isSpace, isSpace b = true :=
    fun b hb => List.mem_takeWhile_imp hb
  match hd : rest.dropWhile isSpace with
  | [] =>
    rw [hd, List.append_nil] at hsplit
    have hw' : Spec.White rest := by
      intro b hb; rw [hsplit] at hb; exact (isSpace_iff b).1 (hw b hb)
    refine ⟨_, skipWhitespace_end h rest (white_isSpace hw'), ?_⟩
    have e1 := readShapeLoopL_stop loc cfg fuel acc (s := s.withRest rest) (by rw [extractSizeL_white loc h hw'])
    have e2 := readShapeLoopL_stop loc cfg fuel acc (s := { s.withRest [] with eof := true })
      (by rw [extractSizeL_bad loc (by simp [IStream.good])])
    exact e2.trans e1.symm
  | b :: r =>
    rw [hd] at hsplit
    have hb : isSpace b = false := by
      have := List.head?_dropWhile_not isSpace rest
      rw [hd] at this
      simpa using this
    refine ⟨s.withRest (b :: r), ?_, ?_⟩
    · conv_lhs => rw [hsplit]
      exact skipWhitespace_ok h _ _ hw hb
    · unfold readShapeLoopL
      rw [SM.bind_apply, SM.bind_apply, extractSizeL_drop loc h hd hb]

theorem readShapeLoopL_cons (loc : Locale) (cfg : Cfg) {ws txt rest : Bytes} {n : Nat} (hws : Spec.White ws)
    (ht : ReadsNumber loc txt n) {s : IStream} (h : s.good = true) (fuel : Nat) (acc : List Nat) :
    (readShapeLoopL loc cfg (fuel + 2) acc (s.withRest (ws ++ txt ++ 44 :: rest))).1 =
      (readShapeLoopL loc cfg (fuel + 1) (acc ++ [n]) (s.withRest rest)).1 := by
  obtain ⟨he, hfl⟩ := (IStream.good_iff s).1 h
  have hs : ({ s.withRest (44 :: rest) with eof := (44 :: rest).isEmpty } : IStream) = s.withRest (44 :: rest) := by
    simp [IStream.withRest, he]
  obtain ⟨s', hs', hloop⟩ := readShapeLoopL_skip loc cfg h fuel (acc ++ [n]) rest
  conv_lhs => unfold readShapeLoopL
  rw [SM.bind_ok (ht h hws (.inr ⟨rest, rfl⟩))]
  simp only []
  rw [hs, SM.bind_ok (IStream.peek_cons h 44 rest), if_pos rfl, SM.bind_ok (readChar_ok cfg h 44 rest),
    SM.bind_ok hs', hloop]

theorem readShapeLoopL_last (loc : Locale) (cfg : Cfg) {ws txt : Bytes} {n : Nat} (hws : Spec.White ws)
    (ht : ReadsNumber loc txt n) {s : IStream} (h : s.good = true) (fuel : Nat) (acc : List Nat) :
    (readShapeLoopL loc cfg (fuel + 2) acc (s.withRest (ws ++ txt))).1 = .ok (acc ++ [n]) := by
  have h1 := ht h hws (r := []) (.inl rfl)
  rw [List.append_nil] at h1
  conv_lhs => unfold readShapeLoopL
  rw [SM.bind_ok h1]
  simp only []
  have hb : ({ s.withRest [] with eof := ([] : Bytes).isEmpty } : IStream).good = false := by simp [IStream.good]
  rw [SM.bind_ok (peek_bad hb), if_neg (by simp),
    readShapeLoopL_stop loc cfg fuel _ (by rw [extractSizeL_bad loc (by simp [IStream.good, IStream.setFail])])]

theorem readShapeLoopL_text {l1 l2 : Locale} (cfg : Cfg) {ns : List Nat} (hn : ∀ n ∈ ns, ReadsNumber l2 (decimalL l1 n) n)
    {s : IStream} (h : s.good = true) (fuel : Nat) (hf : ns.length < fuel) (acc : List Nat) :
    (readShapeLoopL l2 cfg fuel acc (s.withRest (shapeTextL l1 ns ++ if ns.length = 1 then b!"," else []))).1 =
      .ok (acc ++ ns) := by
  have hw : Spec.White [] := by simp [Spec.White]
  have hsp : Spec.White [32] := by simp [Spec.White]
  have main : ∀ (ns : List Nat), (∀ n ∈ ns, ReadsNumber l2 (decimalL l1 n) n) → ns ≠ [] → ∀ ws, Spec.White ws →
      ∀ fuel, ns.length < fuel → ∀ acc,
      (readShapeLoopL l2 cfg fuel acc (s.withRest (ws ++ shapeTextL l1 ns))).1 = .ok (acc ++ ns) := by
    intro ns
    induction ns with
    | nil => intro _ h; exact absurd rfl h
    | cons d ds ih =>
      intro hn _ ws hws fuel hf acc
      obtain ⟨fuel, rfl⟩ : ∃ k, fuel = k + 2 := ⟨fuel - 2, by simp at hf; omega⟩
      match ds with
      | [] => exact readShapeLoopL_last l2 cfg hws (hn d (by simp)) h fuel acc
      | e :: es =>
        have e1 : ws ++ shapeTextL l1 (d :: e :: es) = ws ++ decimalL l1 d ++ 44 :: ([32] ++ shapeTextL l1 (e :: es)) := by
          rw [shapeTextL] <;> simp
        rw [e1, readShapeLoopL_cons l2 cfg hws (hn d (by simp)) h,
          ih (fun m hm => hn m (by simp [hm])) (by simp) [32] hsp (fuel + 1) (by simp at hf ⊢; omega)]
        simp
  obtain ⟨fuel, rfl⟩ : ∃ k, fuel = k + 1 := ⟨fuel - 1, by omega⟩
  match ns with
  | [] =>
    have := readShapeLoopL_stop l2 cfg fuel acc (s := s.withRest []) (by rw [extractSizeL_white l2 h hw])
    simpa [shapeTextL] using this
  | [d] =>
    obtain ⟨fuel, rfl⟩ : ∃ k, fuel = k + 1 := ⟨fuel - 1, by simp at hf; omega⟩
    have := readShapeLoopL_cons l2 cfg hw (hn d (by simp)) h fuel acc (rest := [])
    rw [readShapeLoopL_stop l2 cfg fuel (acc ++ [d]) (s := s.withRest []) (by rw [extractSizeL_white l2 h hw])] at this
    exact this
  | d :: e :: es =>
    have := main (d :: e :: es) hn (by simp) [] hw (fuel + 1) hf acc
    simpa using this

theorem addGrouping_mem {sep : Byte} {b : Byte} (fuel : Nat) {sizes : List Nat} {ds : Bytes}
    (h : b ∈ addGrouping sep fuel sizes ds) : b = sep ∨ b ∈ ds := by
  induction fuel generalizing ds sizes with
  | zero => exact .inr h
  | succ fuel ih =>
    cases sizes with
    | nil => exact .inr h
    | cons k more =>
    unfold addGrouping at h
    split at h
    · rcases List.mem_append.1 h with h | h
      · rcases ih h with h | h
        · exact .inl h
        · exact .inr (List.mem_of_mem_take h)
      · rcases List.mem_cons.1 h with h | h
        · exact .inl h
        · exact .inr (List.mem_of_mem_drop h)
    · exact .inr h

theorem decimalL_no_paren {loc : Locale} (hl : SepOk loc) (n : Nat) : 41 ∉ decimalL loc n := by
  have hd : 41 ∉ decimal n := fun h => absurd (isDigit_decimal n _ h) (by decide)
  match loc, hl with
  | none, _ => exact hd
  | some p, hl =>
    intro h
    rcases addGrouping_mem (decimal n).length h with h | h
    · exact hl.2.2.1 h.symm
    · exact hd h

theorem shapeTextL_no_paren {loc : Locale} (h41 : ∀ n, 41 ∉ decimalL loc n) (ns : List Nat) : 41 ∉ shapeTextL loc ns := by
  induction ns with
  | nil => simp [shapeTextL]
  | cons d ds ih =>
    cases ds with
    | nil => exact h41 d
    | cons e es =>
      rw [shapeTextL] <;> try simp
      exact ⟨h41 d, ih⟩

/-- The text of a shape and the comma after a single extent. -/
def tupleText (loc : Locale) (ns : List Nat) : Bytes := shapeTextL loc ns ++ if ns.length = 1 then b!"," else []

theorem tupleText_no_paren {loc : Locale} (h41 : ∀ n, 41 ∉ decimalL loc n) (ns : List Nat) : 41 ∉ tupleText loc ns := by
  unfold tupleText
  rw [List.mem_append]
  rintro (h | h)
  · exact shapeTextL_no_paren h41 ns h
  · split at h <;> simp at h

theorem addGrouping_ne_nil {sep : Byte} (fuel : Nat) {sizes : List Nat} {ds : Bytes} (h : ds ≠ []) :
    addGrouping sep fuel sizes ds ≠ [] := by
  cases fuel with
  | zero => exact h
  | succ fuel =>
    cases sizes with
    | nil => exact h
    | cons k more => unfold addGrouping; split <;> simp [h]

theorem decimalL_ne_nil (loc : Locale) (n : Nat) : decimalL loc n ≠ [] := by
  cases loc with
  | none => exact decimal_ne_nil n
  | some p => exact addGrouping_ne_nil _ (decimal_ne_nil n)

theorem shapeTextL_length (loc : Locale) (ns : List Nat) : ns.length ≤ (shapeTextL loc ns).length := by
  induction ns with
  | nil => simp
  | cons d ds ih =>
    have := List.length_pos_iff.2 (decimalL_ne_nil loc d)
    cases ds with
    | nil => simp [shapeTextL]; omega
    | cons e es =>
      rw [shapeTextL] <;> try simp
      simp at ih
      omega

/-- `read_shape` on the text of a tuple, whatever the loop gives. -/
theorem readShapeL_tuple {l1 l2 : Locale} (cfg : Cfg) {ns ms : List Nat} (h41 : ∀ n, 41 ∉ decimalL l1 n)
    (hlen : (tupleText l1 ns).length < BUFFER_SIZE)
    (hloop : (readShapeLoopL l2 cfg ((tupleText l1 ns).length + 1) [] (IStream.ofBytes (tupleText l1 ns))).1 = .ok ms)
    {s : IStream} (h : s.good = true) (r : Bytes) :
    readShapeL l2 cfg (s.withRest (40 :: (tupleText l1 ns ++ 41 :: r))) = (.ok ms, s.withRest r) := by
  unfold readShapeL
  rw [SM.bind_ok (readChar_ok cfg h 40 _), SM.bind_ok (readTo_ok h _ r 41 (tupleText_no_paren h41 ns) hlen),
    SM.bind_ok (readChar_ok cfg h 41 _), SM.lift_apply, hloop]

theorem readShapeLoopL_tuple {l1 l2 : Locale} (cfg : Cfg) {ns : List Nat} (hn : ∀ n ∈ ns, ReadsNumber l2 (decimalL l1 n) n) :
    (readShapeLoopL l2 cfg ((tupleText l1 ns).length + 1) [] (IStream.ofBytes (tupleText l1 ns))).1 = .ok ns := by
  have := readShapeLoopL_text cfg hn (IStream.ofBytes_good (tupleText l1 ns)) ((tupleText l1 ns).length + 1) (by
    have := shapeTextL_length l1 ns
    unfold tupleText
    rw [List.length_append]
    omega) []
  exact this

/-! ### The dictionary -/

/-- One item of the dictionary as the writer prints it. -/
def itemText (key v r : Bytes) : Bytes := 39 :: (key ++ 39 :: 58 :: 32 :: (v ++ 44 :: 32 :: r))

theorem parseItemL_ok (loc : Locale) (cfg : Cfg) (h h' : HeaderInfo) {key v : Bytes} (hk : 39 ∉ key)
    (hkl : key.length < BUFFER_SIZE) {s : IStream} (hs : s.good = true) (r : Bytes) (hr : notSpaceHead r)
    (hv : ∀ y, notSpaceHead (v ++ y))
    (hval : ∀ y, parseValueL loc cfg h key (s.withRest (v ++ y)) = (.ok h', s.withRest y)) :
    parseItemL loc cfg h (s.withRest (itemText key v r)) = (.ok h', s.withRest r) := by
  have hsp : ∀ b ∈ [(32 : Byte)], isSpace b = true := by decide
  have h0 : ∀ b y, isSpace b = false → skipWhitespace (s.withRest (b :: y)) = (.ok (), s.withRest (b :: y)) :=
    fun b y hb => skipWhitespace_ok hs [] (b :: y) (by simp) hb
  have h1 : ∀ y, notSpaceHead y → skipWhitespace (s.withRest (32 :: y)) = (.ok (), s.withRest y) :=
    fun y hy => skipWhitespace_ok hs [32] y hsp hy
  unfold parseItemL itemText
  rw [SM.bind_ok (h0 39 _ (by decide)),
    SM.bind_ok (readString_ok cfg hs key _ hk hkl),
    SM.bind_ok (h0 58 _ (by decide)),
    SM.bind_ok (readChar_ok cfg hs 58 _),
    SM.bind_ok (h1 _ (hv _)),
    SM.bind_ok (hval _),
    SM.bind_ok (readChar_ok cfg hs 44 _),
    SM.bind_ok (h1 _ hr)]
  rfl

theorem parseItemsL_step (loc : Locale) (cfg : Cfg) {h h' : HeaderInfo} {s s' : IStream} (hs : s.good = true)
    {key v r : Bytes} (fuel : Nat) (hi : parseItemL loc cfg h (s.withRest (itemText key v r)) = (.ok h', s')) :
    parseItemsL loc cfg (fuel + 1) h (s.withRest (itemText key v r)) = parseItemsL loc cfg fuel h' s' := by
  conv_lhs => unfold parseItemsL
  have hp : IStream.peek (s.withRest (itemText key v r)) = (.ok (some 39), s.withRest (itemText key v r)) :=
    IStream.peek_cons hs _ _
  rw [SM.bind_ok hp, if_neg (by decide), SM.bind_ok hi]

theorem dictionaryTextL_eq (loc : Locale) (d : Bytes) (f : Bool) (ns : List Nat) (padding : Bytes) :
    dictionaryTextL loc d f ns ++ padding = 123 :: itemText b!"descr" (39 :: (d ++ [39]))
      (itemText b!"fortran_order" (Spec.pyBool f)
        (itemText b!"shape" (40 :: (tupleText loc ns ++ [41])) (125 :: padding))) := by
  simp [dictionaryTextL, tupleText, Spec.pyBool, itemText]

theorem parseHeaderL_saved {l1 l2 : Locale} (cfg : Cfg) {d : Bytes} {f : Bool} {ns ms : List Nat} {h1 : HeaderInfo}
    (hd : 39 ∉ d) (hd' : setDescr HeaderInfo.uninit d = .ok h1) (h41 : ∀ n, 41 ∉ decimalL l1 n)
    (hlen : (dictionaryTextL l1 d f ns).length < BUFFER_SIZE)
    (hloop : (readShapeLoopL l2 cfg ((tupleText l1 ns).length + 1) [] (IStream.ofBytes (tupleText l1 ns))).1 = .ok ms)
    (padding : Bytes) :
    parseHeaderL l2 cfg (dictionaryTextL l1 d f ns ++ padding) =
      .ok { h1 with fortranOrder := some f, shape := ms } := by
  have hlen2 : d.length < BUFFER_SIZE ∧ (tupleText l1 ns).length < BUFFER_SIZE := by
    have := congrArg List.length (dictionaryTextL_eq l1 d f ns [])
    simp [itemText] at this
    omega
  unfold parseHeaderL
  generalize hF : (dictionaryTextL l1 d f ns ++ padding).length + 1 = fuel
  obtain ⟨fuel, rfl⟩ : ∃ k, fuel = k + 4 := ⟨fuel - 4, by
    rw [dictionaryTextL_eq] at hF
    simp [itemText] at hF
    omega⟩
  clear hF
  rw [dictionaryTextL_eq]
  generalize hT : itemText b!"shape" (40 :: (tupleText l1 ns ++ [41])) (125 :: padding) = T3
  generalize hT2 : itemText b!"fortran_order" (Spec.pyBool f) T3 = T2
  generalize hT1 : itemText b!"descr" (39 :: (d ++ [39])) T2 = T1
  generalize hS : IStream.ofBytes (123 :: T1) = s0
  have hs : s0.good = true := by rw [← hS]; rfl
  have hr : s0 = s0.withRest (123 :: T1) := by rw [← hS]; rfl
  rw [hr, SM.bind_ok (readChar_ok cfg hs 123 _)]
  have i1 : parseItemL l2 cfg HeaderInfo.uninit (s0.withRest T1) = (.ok h1, s0.withRest T2) := by
    rw [← hT1]
    refine parseItemL_ok l2 cfg _ _ (by decide) (by decide) hs _ (by rw [← hT2, itemText]; simp only [notSpaceHead]; decide)
      (fun y => by simp only [List.cons_append, notSpaceHead]; decide) (fun y => ?_)
    unfold parseValueL
    rw [if_pos rfl]
    simp only [List.cons_append, List.append_assoc, List.nil_append]
    rw [SM.bind_ok (readString_ok cfg hs d _ hd hlen2.1), SM.lift_apply, hd']
  have i2 : parseItemL l2 cfg h1 (s0.withRest T2) = (.ok { h1 with fortranOrder := some f }, s0.withRest T3) := by
    rw [← hT2]
    refine parseItemL_ok l2 cfg _ _ (by decide) (by decide) hs _ (by rw [← hT, itemText]; simp only [notSpaceHead]; decide)
      (value_head (.fortranOrder)) (fun y => ?_)
    unfold parseValueL
    rw [if_neg (by decide), if_pos rfl]
    rw [Spec.pyBool, SM.bind_ok (readBool_ok cfg hs f _)]
    rfl
  have i3 : parseItemL l2 cfg { h1 with fortranOrder := some f } (s0.withRest T3) =
      (.ok { h1 with fortranOrder := some f, shape := ms }, s0.withRest (125 :: padding)) := by
    rw [← hT]
    refine parseItemL_ok l2 cfg _ _ (by decide) (by decide) hs _ (by simp only [notSpaceHead]; decide)
      (fun y => by simp only [List.cons_append, notSpaceHead]; decide) (fun y => ?_)
    unfold parseValueL
    rw [if_neg (by decide), if_neg (by decide), if_pos rfl]
    simp only [List.cons_append, List.append_assoc, List.nil_append]
    rw [SM.bind_ok (readShapeL_tuple cfg h41 hlen2.2 hloop hs _)]
    rfl
  have i4 : parseItemsL l2 cfg (fuel + 1) { h1 with fortranOrder := some f, shape := ms } (s0.withRest (125 :: padding)) =
      (.ok { h1 with fortranOrder := some f, shape := ms }, s0.withRest (125 :: padding)) := by
    unfold parseItemsL
    rw [SM.bind_ok (IStream.peek_cons hs _ _), if_pos rfl]
    rfl
  have i : parseItemsL l2 cfg (fuel + 4) HeaderInfo.uninit (s0.withRest T1) = 
      (.ok { h1 with fortranOrder := some f, shape := ms }, s0.withRest (125 :: padding)) := by
    rw [← hT1] at i1 ⊢
    rw [parseItemsL_step l2 cfg hs (fuel + 3) i1]
    rw [← hT2] at i2 ⊢
    rw [parseItemsL_step l2 cfg hs (fuel + 2) i2]
    rw [← hT] at i3 ⊢
    rw [parseItemsL_step l2 cfg hs (fuel + 1) i3, i4]
  rw [SM.bind_ok i, SM.bind_ok (readChar_ok cfg hs 125 _)]
  rfl

/-! ### Files -/

/-- The bytes of the header. -/
def headerBytesL (loc : Locale) (d : Bytes) (f : Bool) (ns : List Nat) : Bytes :=
  staticHeader (paddedDictLength (dictionaryTextL loc d f ns).length) ++ dictionaryTextL loc d f ns ++
    headerEnd (dictionaryTextL loc d f ns).length

theorem writeNpyHeaderL_ok {loc : Locale} {o : OStream} (ho : o.Healthy) (d : Bytes) (f : Bool) (ns : List Nat) :
    writeNpyHeaderL loc o d f ns = o.write (headerBytesL loc d f ns) := by
  unfold writeNpyHeaderL headerBytesL
  simp only []
  rw [OStream.write_healthy ((ho.write _).write _), OStream.write_healthy (ho.write _), OStream.write_healthy ho,
    OStream.write_healthy ho]
  simp

theorem readNpyHeaderL_v1 (loc : Locale) (cfg : Cfg) {s : IStream} (h : s.good = true) (b8 b9 : Byte) (dict r : Bytes)
    (hl : dict.length = b8.toNat + 256 * b9.toNat) :
    readNpyHeaderL loc cfg (s.withRest ([0x93, 78, 85, 77, 80, 89, 1, 0, b8, b9] ++ (dict ++ r))) =
      (parseHeaderL loc cfg dict, s.withRest r) := by
  unfold readNpyHeaderL
  rw [SM.bind_ok (IStream.read_append h _ _ STATIC_HEADER_LENGTH rfl)]
  simp only [MAGIC, ne_eq, not_true_eq_false, and_false, if_false, and_self, if_true]
  have hb8 := b8.toNat_lt
  have hb9 := b9.toNat_lt
  rw [SM.bind_ok (readDictionary_ok h dict r _ hl (by rw [VECTOR_CHAR_MAX]; omega)), SM.lift_apply]

theorem readNpyHeaderL_saved {l1 l2 : Locale} (cfg : Cfg) {s : IStream} (h : s.good = true) {d : Bytes} {f : Bool}
    {ns ms : List Nat} {h1 : HeaderInfo} (hd : 39 ∉ d) (hd' : setDescr HeaderInfo.uninit d = .ok h1)
    (h41 : ∀ n, 41 ∉ decimalL l1 n) (hlen : (dictionaryTextL l1 d f ns).length ≤ 245)
    (hloop : (readShapeLoopL l2 cfg ((tupleText l1 ns).length + 1) [] (IStream.ofBytes (tupleText l1 ns))).1 = .ok ms)
    (r : Bytes) :
    readNpyHeaderL l2 cfg (s.withRest (headerBytesL l1 d f ns ++ r)) =
      (.ok { h1 with fortranOrder := some f, shape := ms }, s.withRest r) := by
  have hl : paddedDictLength (dictionaryTextL l1 d f ns).length < 256 := (paddedDictLength_lt_256 _).2 hlen
  have e := readNpyHeaderL_v1 l2 cfg h (UInt8.ofNat (paddedDictLength (dictionaryTextL l1 d f ns).length)) 0
    (dictionaryTextL l1 d f ns ++ headerEnd (dictionaryTextL l1 d f ns).length) r (by
      rw [List.length_append, headerEnd_length]
      simp; omega)
  rw [headerBytesL, staticHeader, List.append_assoc, List.append_assoc]
  rw [List.append_assoc] at e
  rw [e, parseHeaderL_saved cfg hd hd' h41 (by rw [BUFFER_SIZE]; omega) hloop]

/-- The bytes of a saved tensor. -/
def savedFixedL (loc : Locale) (cfg : Cfg) (t : DType) (x : Tensor Elem) (e : Endian) : Bytes :=
  headerBytesL loc (Spec.descr t (Spec.isBig cfg e)) x.fortranOrder x.shape ++ x.values.flatMap (fixedBytes cfg t e)

theorem saveL_fixed {loc : Locale} {cfg : Cfg} {t : DType} (ht : t ≠ .unicode) {x : Tensor Elem}
    (hv : ∀ v ∈ x.values, ValidElem t v) (e : Endian) {o : OStream} (ho : o.Healthy) :
    saveL loc cfg (fixedOps t) x e o = .ok (o.write (savedFixedL loc cfg t x e)) := by
  unfold saveL
  have : (fixedOps t).dtypeStr cfg e x.values = .ok (Spec.descr t (Spec.isBig cfg e)) := toDtype_eq cfg t ht e
  rw [this]
  simp only [fixedOps]
  rw [writeNpyHeaderL_ok ho, writeFixed_ok ht e hv (ho.write _), OStream.write_write ho]
  rfl

theorem loadL_of_header {α : Type} {loc : Locale} {cfg : Cfg} {ops : ElemOps α} (hs : 0 < ops.sizeof) {x : Tensor α}
    (hx : Spec.TensorOk ops.dtype ops.sizeof x) {s s1 s2 : IStream} {info : HeaderInfo}
    (hh : readNpyHeaderL loc cfg s = (.ok info, s1)) (hf : info.fortranOrder = some x.fortranOrder)
    (hsh : info.shape = x.shape) (hd : info.dtype = some ops.dtype) {vals : List α}
    (hr : ops.read cfg info x.values.length s1 = (.ok vals, s2)) :
    loadL loc cfg ops s = (.ok { x with values := vals }, s2) := by
  unfold loadL
  rw [SM.bind_ok hh]
  unfold Tensor.load
  rw [hf, hsh, hd]
  simp only []
  rw [Tensor.new_of_ok hs hx]
  have : (SM.lift (.ok { x with values := List.replicate x.values.length ops.zero }) : IM (Tensor α)) s1 =
    (.ok { x with values := List.replicate x.values.length ops.zero }, s1) := rfl
  rw [SM.bind_ok this, if_neg (by simp [hx.dtype])]
  simp only [List.length_replicate]
  rw [SM.bind_ok hr]
  rfl

theorem loadL_fixed {l1 l2 : Locale} {cfg : Cfg} {t : DType} (ht : t ≠ .unicode) {x : Tensor Elem}
    (hx : Spec.TensorOk t t.size x) (hv : ∀ v ∈ x.values, ValidElem t v) (e : Endian)
    (hlen : (dictionaryTextL l1 (Spec.descr t (Spec.isBig cfg e)) x.fortranOrder x.shape).length ≤ 245)
    (h41 : ∀ n, 41 ∉ decimalL l1 n) (hn : ∀ n ∈ x.shape, ReadsNumber l2 (decimalL l1 n) n)
    {s : IStream} (h : s.good = true) (r : Bytes) :
    loadL l2 cfg (fixedOps t) (s.withRest (savedFixedL l1 cfg t x e ++ r)) = (.ok x, s.withRest r) := by
  rw [savedFixedL, List.append_assoc]
  have hh := readNpyHeaderL_saved cfg h (descr_no_quote t _) (setDescr_fixed HeaderInfo.uninit t ht _) h41 hlen
    (readShapeLoopL_tuple cfg hn) (x.values.flatMap (fixedBytes cfg t e) ++ r)
  have := loadL_of_header (ops := fixedOps t) (size_pos t ht) hx hh rfl rfl rfl
    (vals := x.values) (s2 := s.withRest r) (readFixed_ok ht hv (.inr (by simp)) (swaps_stored cfg t e) h r)
  rw [this]

end Npy
