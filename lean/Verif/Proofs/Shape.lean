import Verif.Spec.Layout
import Verif.Proofs.Decimal
import Mathlib.Data.Nat.Digits.Lemmas
import Mathlib.Data.List.TakeWhile
/-! Parsing the shape tuple. -/

namespace Npy

theorem decValue_ofDigits (ds : Bytes) :
    decValue ds = Nat.ofDigits 10 (ds.reverse.map fun b => b.toNat - 48) := by
  induction ds using List.reverseRecOn with
  | nil => rfl
  | append_singleton ds d ih =>
    rw [decValue_snoc, ih]
    simp [Nat.ofDigits_cons]
    omega

theorem white_isSpace {ws : Bytes} (h : Spec.White ws) : ∀ b ∈ ws, Npy.isSpace b = true := by
  intro b hb
  rw [isSpace_iff]
  exact h b hb

theorem numeral_isDigit {ds : Bytes} {n : Nat} (h : Spec.IsNumeral ds n) : ∀ b ∈ ds, Npy.isDigit b = true := by
  intro b hb
  rw [isDigit_iff]
  exact h.digits b hb

theorem numeral_decValue {ds : Bytes} {n : Nat} (h : Spec.IsNumeral ds n) : Npy.decValue ds = n := by
  rw [decValue_ofDigits, h.value]

theorem isNumeral_decimal (n : Nat) : Spec.IsNumeral (decimal n) n where
  nonempty := decimal_ne_nil n
  digits := fun b hb => (isDigit_iff b).1 (isDigit_decimal n b hb)
  value := by rw [← decValue_ofDigits, decValue_decimal]

/-- No digit at the front. -/
def NoDigitHead : Bytes → Prop
  | [] => True
  | b :: _ => isDigit b = false

theorem dropWhile_all {p : Byte → Bool} {as : Bytes} (rest : Bytes) (h : ∀ a ∈ as, p a = true) :
    (as ++ rest).dropWhile p = rest.dropWhile p := by
  induction as with
  | nil => rfl
  | cons a as ih =>
    rw [List.cons_append, List.dropWhile_cons_of_pos (h a (by simp))]
    exact ih (fun b hb => h b (by simp [hb]))

theorem extractSize_ok {s : IStream} (h : s.good = true) {ws ds r : Bytes} {n : Nat}
    (hws : Spec.White ws) (hds : Spec.IsNumeral ds n) (hr : NoDigitHead r) (hn : n < SIZE) :
    IStream.extractSize (s.withRest (ws ++ ds ++ r)) =
      (.ok (some n), { s.withRest r with eof := r.isEmpty }) := by
  have hd := numeral_isDigit hds
  have hv := numeral_decValue hds
  obtain ⟨d, ds', rfl⟩ := List.exists_cons_of_ne_nil hds.nonempty
  have hd0 := hd d (by simp)
  have hdrop : (ws ++ (d :: ds') ++ r).dropWhile isSpace = d :: (ds' ++ r) := by
    rw [List.append_assoc, dropWhile_all _ (white_isSpace hws), List.cons_append,
      List.dropWhile_cons_of_neg (by simp [digit_not_space hd0])]
  have h45 : (d == 45) = false := by simpa using digit_ne hd0 45 (by decide)
  have h43 : (d == 43) = false := by simpa using digit_ne hd0 43 (by decide)
  have htake : (d :: (ds' ++ r)).takeWhile isDigit = d :: ds' := by
    rw [← List.cons_append, List.takeWhile_append_of_pos hd]
    match r, hr with
    | [], _ => simp
    | b :: r, hb => simp [List.takeWhile_cons_of_neg (by simpa [NoDigitHead] using hb)]
  have hdrop2 : (d :: (ds' ++ r)).dropWhile isDigit = r := by
    rw [← List.cons_append, dropWhile_all _ hd]
    match r, hr with
    | [], _ => simp
    | b :: r, hb => rw [List.dropWhile_cons_of_neg (by simpa [NoDigitHead] using hb)]
  simp only [IStream.extractSize, IStream.withRest_good, h, if_true, IStream.withRest_rest, hdrop, h45, h43,
    Bool.or_self, Bool.false_eq_true, if_false, htake, hdrop2, List.isEmpty_cons, hv, hn]
  rfl

theorem extractSize_white {s : IStream} (h : s.good = true) {ws : Bytes} (hws : Spec.White ws) :
    IStream.extractSize (s.withRest ws) = (.ok none, (s.withRest []).setEofFail) := by
  have hdrop : ws.dropWhile isSpace = [] := by
    have := dropWhile_all [] (white_isSpace hws)
    simpa using this
  simp only [IStream.extractSize, IStream.withRest_good, h, if_true, IStream.withRest_rest, hdrop]
  rfl

theorem extractSize_bad {s : IStream} (h : s.good = false) :
    IStream.extractSize s = (.ok none, s.setFail) := by
  simp [IStream.extractSize, h]

theorem peek_bad {s : IStream} (h : s.good = false) : IStream.peek s = (.ok none, s.setFail) := by
  simp [IStream.peek, h]

theorem readShapeLoop_none (cfg : Cfg) {s : IStream} (fuel : Nat) (acc : List Nat)
    (h : (IStream.extractSize s).1 = .ok none) : (readShapeLoop cfg (fuel + 1) acc s).1 = .ok acc := by
  unfold readShapeLoop
  rw [SM.bind_ok (a := none) (s' := (IStream.extractSize s).2) (by rw [← h])]
  rfl

/-- Skipping white space first makes no difference to the shape loop. -/
theorem readShapeLoop_skip (cfg : Cfg) {s : IStream} (h : s.good = true) (fuel : Nat) (acc : List Nat)
    (rest : Bytes) :
    ∃ s', skipWhitespace (s.withRest rest) = (.ok (), s') ∧
      (readShapeLoop cfg (fuel + 1) acc s').1 = (readShapeLoop cfg (fuel + 1) acc (s.withRest rest)).1 := by
  have hsplit : rest = rest.takeWhile isSpace ++ rest.dropWhile isSpace := List.takeWhile_append_dropWhile.symm
  have hw : ∀ b ∈ rest.takeWhile isSpace, isSpace b = true := 
    fun b hb => List.mem_takeWhile_imp hb
  match hd : rest.dropWhile isSpace with
  | [] =>
    rw [hd, List.append_nil] at hsplit
    have hw' : Spec.White rest := by
      intro b hb; rw [hsplit] at hb; exact (isSpace_iff b).1 (hw b hb)
    refine ⟨_, skipWhitespace_end h rest (white_isSpace hw'), ?_⟩
    have e1 := readShapeLoop_none cfg fuel acc (s := s.withRest rest) (by rw [extractSize_white h hw'])
    have e2 := readShapeLoop_none cfg fuel acc (s := { s.withRest [] with eof := true })
      (by rw [extractSize_bad (by simp [IStream.good])])
    exact e2.trans e1.symm
  | b :: r =>
    rw [hd] at hsplit
    have hb : isSpace b = false := by
      have := List.head?_dropWhile_not isSpace rest
      rw [hd] at this
      simpa using this
    refine ⟨s.withRest (b :: r), ?_, ?_⟩
    · conv_lhs => rw [hsplit]
      exact skipWhitespace_ok h _ _ hw hb
    · have hd' : (b :: r).dropWhile isSpace = b :: r := List.dropWhile_cons_of_neg (by simp [hb])
      have : IStream.extractSize (s.withRest (b :: r)) = IStream.extractSize (s.withRest rest) := by
        simp only [IStream.extractSize, IStream.withRest_good, h, if_true, IStream.withRest_rest, hd, hd']
        rfl
      unfold readShapeLoop
      rw [SM.bind_apply, SM.bind_apply, this]

/-- One number followed by a comma. -/
theorem readShapeLoop_cons (cfg : Cfg) {ws ds rest : Bytes} {n : Nat} (hws : Spec.White ws) (hds : Spec.IsNumeral ds n)
    (hn : n < SIZE) {s : IStream} (h : s.good = true) (fuel : Nat) (acc : List Nat) :
    (readShapeLoop cfg (fuel + 2) acc (s.withRest (ws ++ ds ++ b!"," ++ rest))).1 =
      (readShapeLoop cfg (fuel + 1) (acc ++ [n]) (s.withRest rest)).1 := by
  obtain ⟨he, hfl⟩ := (IStream.good_iff s).1 h
  have e1 : ws ++ ds ++ [44] ++ rest = ws ++ ds ++ (44 :: rest) := by simp
  have hr : NoDigitHead (44 :: rest) := by simp only [NoDigitHead]; decide
  have hs : ({ s.withRest (44 :: rest) with eof := (44 :: rest).isEmpty } : IStream) = s.withRest (44 :: rest) := by
    simp [IStream.withRest, he]
  obtain ⟨s', hs', hloop⟩ := readShapeLoop_skip cfg h fuel (acc ++ [n]) rest
  rw [e1]
  conv_lhs => unfold readShapeLoop
  rw [SM.bind_ok (extractSize_ok h hws hds hr hn)]
  simp only []
  rw [hs, SM.bind_ok (IStream.peek_cons h 44 rest), if_pos rfl, SM.bind_ok (readChar_ok cfg h 44 rest),
    SM.bind_ok hs', hloop]

theorem readShapeLoop_layout (cfg : Cfg) {ns : List Nat} {text : Bytes} (hl : Spec.ShapeLayout ns text)
    (hn : ∀ n ∈ ns, n < SIZE) {s : IStream} (h : s.good = true) (fuel : Nat) (hf : ns.length < fuel)
    (acc : List Nat) : (readShapeLoop cfg fuel acc (s.withRest text)).1 = .ok (acc ++ ns) := by
  obtain ⟨he, hfl⟩ := (IStream.good_iff s).1 h
  induction hl generalizing fuel acc with
  | empty hws =>
    obtain ⟨fuel, rfl⟩ : ∃ k, fuel = k + 1 := ⟨fuel - 1, by omega⟩
    rw [readShapeLoop_none cfg fuel acc (by rw [extractSize_white h hws])]
    simp
  | @last ws ds ws' n hws hds hws' =>
    obtain ⟨fuel, rfl⟩ : ∃ k, fuel = k + 2 := ⟨fuel - 2, by simp at hf; omega⟩
    have hr : NoDigitHead ws' := by
      match ws', hws' with
      | [], _ => trivial
      | b :: _, hb =>
        have := hb b (by simp)
        simp only [NoDigitHead, ← Bool.not_eq_true, isDigit_iff]
        omega
    unfold readShapeLoop
    rw [SM.bind_ok (extractSize_ok h hws hds hr (hn n (by simp)))]
    simp only []
    match ws', hws' with
    | [], _ =>
      have hb : ({ s.withRest [] with eof := ([] : Bytes).isEmpty } : IStream).good = false := by
        simp [IStream.good]
      rw [SM.bind_ok (peek_bad hb), if_neg (by simp),
        readShapeLoop_none cfg fuel _ (by rw [extractSize_bad (by simp [IStream.good, IStream.setFail])])]
    | b :: ws', hws' =>
      have hs : ({ s.withRest (b :: ws') with eof := (b :: ws').isEmpty } : IStream) = s.withRest (b :: ws') := by
        simp [IStream.withRest, he]
      have h44 : b ≠ 44 := by
        rintro rfl
        have := hws' 44 (by simp)
        revert this; decide
      rw [hs, SM.bind_ok (IStream.peek_cons h b ws'), if_neg (by simpa using h44),
        readShapeLoop_none cfg fuel _ (by rw [extractSize_white h hws'])]
  | @cons ws ds rest n ns hws hds hrest ih =>
    obtain ⟨fuel, rfl⟩ : ∃ k, fuel = k + 2 := ⟨fuel - 2, by simp at hf; omega⟩
    rw [readShapeLoop_cons cfg hws hds (hn n (by simp)) h,
      ih (fun m hm => hn m (by simp [hm])) (fuel + 1) (by simp at hf; omega)]
    simp

theorem shapeLayout_length {ns : List Nat} {text : Bytes} (hl : Spec.ShapeLayout ns text) :
    ns.length ≤ text.length := by
  induction hl with
  | empty => simp
  | last _ hds _ => have := List.length_pos_iff.2 hds.nonempty; simp; omega
  | cons _ hds _ ih => simp; omega

theorem white_no_mem {ws : Bytes} (h : Spec.White ws) (c : Byte) (hc : ¬ (c.toNat = 32 ∨ (9 ≤ c.toNat ∧ c.toNat ≤ 13))) :
    c ∉ ws := fun hm => hc (h c hm)

theorem numeral_no_mem {ds : Bytes} {n} (h : Spec.IsNumeral ds n) (c : Byte) (hc : ¬ (48 ≤ c.toNat ∧ c.toNat ≤ 57)) :
    c ∉ ds := fun hm => hc (h.digits c hm)

theorem shapeLayout_no_paren {ns : List Nat} {text : Bytes} (hl : Spec.ShapeLayout ns text) : 41 ∉ text := by
  induction hl with
  | empty h => exact white_no_mem h 41 (by decide)
  | last h1 h2 h3 =>
    simp only [List.mem_append, not_or]
    exact ⟨⟨white_no_mem h1 41 (by decide), numeral_no_mem h2 41 (by decide)⟩, white_no_mem h3 41 (by decide)⟩
  | cons h1 h2 _ ih =>
    simp only [List.mem_append, not_or]
    exact ⟨⟨⟨white_no_mem h1 41 (by decide), numeral_no_mem h2 41 (by decide)⟩, by decide⟩, ih⟩

theorem readShape_ok (cfg : Cfg) {ns : List Nat} {text : Bytes} (hl : Spec.ShapeLayout ns text)
    (hn : ∀ n ∈ ns, n < SIZE) (hlen : text.length < BUFFER_SIZE) {s : IStream} (h : s.good = true) (r : Bytes) :
    readShape cfg (s.withRest (40 :: (text ++ 41 :: r))) = (.ok ns, s.withRest r) := by
  unfold readShape
  rw [SM.bind_ok (readChar_ok cfg h 40 _), SM.bind_ok (readTo_ok h text r 41 (shapeLayout_no_paren hl) hlen),
    SM.bind_ok (readChar_ok cfg h 41 _), SM.lift_apply]
  have := readShapeLoop_layout cfg hl hn (IStream.ofBytes_good text) (text.length + 1)
    (by have := shapeLayout_length hl; omega) []
  rw [show (IStream.ofBytes text).withRest text = IStream.ofBytes text from rfl] at this
  rw [this]
  simp

/-- The text the writer produces is in the grammar. -/
theorem shapeText_layout (ns : List Nat) :
    Spec.ShapeLayout ns (shapeText ns ++ if ns.length = 1 then b!"," else []) := by
  have hw : Spec.White [] := by simp [Spec.White]
  have hsp : Spec.White [32] := by simp [Spec.White]
  have main : ∀ ns : List Nat, ∀ ws, Spec.White ws → ns.length ≠ 0 → Spec.ShapeLayout ns (ws ++ shapeText ns) := by
    intro ns
    induction ns with
    | nil => simp
    | cons d ds ih =>
      intro ws hws _
      match ds with
      | [] =>
        have := Spec.ShapeLayout.last hws (isNumeral_decimal d) hw
        simpa [shapeText] using this
      | e :: es =>
        have := Spec.ShapeLayout.cons hws (isNumeral_decimal d) (ih [32] hsp (by simp))
        simpa [shapeText] using this
  match ns with
  | [] => simpa [shapeText] using Spec.ShapeLayout.empty hw
  | [d] =>
    have := Spec.ShapeLayout.cons hw (isNumeral_decimal d) (Spec.ShapeLayout.empty hw)
    simpa [shapeText] using this
  | d :: e :: es => simpa using main (d :: e :: es) [] hw (by simp)

end Npy
