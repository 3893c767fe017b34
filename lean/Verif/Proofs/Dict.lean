import Verif.Proofs.Shape
/-! Parsing the header dictionary. -/

namespace Npy

/-- What one field does to the header being built. -/
def applyField (h : HeaderInfo) : Spec.Field → Except Err HeaderInfo
  | .descr code => setDescr h code
  | .fortranOrder b => .ok { h with fortranOrder := some b }
  | .shape ns => .ok { h with shape := ns }

def applyFields (h : HeaderInfo) : List Spec.Field → Except Err HeaderInfo
  | [] => .ok h
  | f :: fs => match applyField h f with
    | .ok h' => applyFields h' fs
    | .error e => .error e

/-- Conditions on a field under which the parser reads it back. -/
def FieldOk : Spec.Field → Prop
  | .descr code => 39 ∉ code
  | .fortranOrder _ => True
  | .shape ns => ∀ n ∈ ns, n < SIZE

theorem parseValue_ok (cfg : Cfg) (h h' : HeaderInfo) {f : Spec.Field} {v : Bytes} (hv : Spec.ValueLayout f v)
    (hok : FieldOk f) (hlen : v.length < BUFFER_SIZE) (ha : applyField h f = .ok h')
    {s : IStream} (hs : s.good = true) (r : Bytes) :
    parseValue cfg h f.key (s.withRest (v ++ r)) = (.ok h', s.withRest r) := by
  unfold parseValue
  cases hv with
  | @descr code =>
    simp only [Spec.Field.key]
    rw [if_pos (by decide)]
    have := readString_ok cfg hs code r hok (by simp at hlen; omega)
    simp only [List.cons_append, List.nil_append, List.append_assoc]
    rw [SM.bind_ok this, SM.lift_apply]
    simp only [applyField] at ha
    rw [ha]
  | @fortranOrder b =>
    simp only [Spec.Field.key]
    rw [if_neg (by decide), if_pos (by decide)]
    rw [Spec.pyBool, SM.bind_ok (readBool_ok cfg hs b r)]
    simp only [applyField, Except.ok.injEq] at ha
    subst ha
    rfl
  | @shape ns text hl =>
    simp only [Spec.Field.key]
    rw [if_neg (by decide), if_neg (by decide), if_pos (by decide)]
    have := readShape_ok cfg hl hok (by simp at hlen; omega) hs r
    simp only [List.cons_append, List.nil_append, List.append_assoc]
    rw [SM.bind_ok this]
    simp only [applyField, Except.ok.injEq] at ha
    subst ha
    rfl

theorem value_head {f : Spec.Field} {v : Bytes} (hv : Spec.ValueLayout f v) (r : Bytes) : notSpaceHead (v ++ r) := by
  cases hv with
  | descr => simp only [List.cons_append, notSpaceHead]; decide
  | @fortranOrder b => cases b <;> simp only [Spec.pyBool, if_true, Bool.false_eq_true, if_false, List.cons_append, notSpaceHead] <;> decide
  | shape => simp only [List.cons_append, notSpaceHead]; decide

theorem key_no_quote (f : Spec.Field) : 39 ∉ f.key := by
  cases f <;> simp only [Spec.Field.key] <;> decide

theorem key_length (f : Spec.Field) : f.key.length < BUFFER_SIZE := by
  cases f <;> simp only [Spec.Field.key] <;> decide

/-- One item, up to and including its comma and the following white space. -/
theorem parseItem_ok (cfg : Cfg) (h h' : HeaderInfo) {f : Spec.Field} {v w1 w2 w3 w4 : Bytes}
    (hw1 : Spec.White w1) (hw2 : Spec.White w2) (hw3 : Spec.White w3) (hw4 : Spec.White w4)
    (hv : Spec.ValueLayout f v) (hok : FieldOk f) (hlen : v.length < BUFFER_SIZE) (ha : applyField h f = .ok h')
    {s : IStream} (hs : s.good = true) (r : Bytes) (hr : notSpaceHead r) :
    parseItem cfg h (s.withRest
      (w1 ++ 39 :: (f.key ++ 39 :: (w2 ++ 58 :: (w3 ++ (v ++ 44 :: (w4 ++ r))))))) = (.ok h', s.withRest r) := by
  unfold parseItem
  rw [SM.bind_ok (skipWhitespace_ok hs w1 _ (white_isSpace hw1) (by simp only [notSpaceHead]; decide)),
    SM.bind_ok (readString_ok cfg hs f.key _ (key_no_quote f) (key_length f)),
    SM.bind_ok (skipWhitespace_ok hs w2 _ (white_isSpace hw2) (by simp only [notSpaceHead]; decide)),
    SM.bind_ok (readChar_ok cfg hs 58 _),
    SM.bind_ok (skipWhitespace_ok hs w3 _ (white_isSpace hw3) (value_head hv _)),
    SM.bind_ok (parseValue_ok cfg h h' hv hok hlen ha hs _),
    SM.bind_ok (readChar_ok cfg hs 44 _),
    SM.bind_ok (skipWhitespace_ok hs w4 _ (white_isSpace hw4) hr)]
  rfl

/-- White space before the first key makes no difference. -/
theorem parseItems_white (cfg : Cfg) (h : HeaderInfo) {s : IStream} (hs : s.good = true) {w : Bytes}
    (hw : Spec.White w) (y : Bytes) (fuel : Nat) :
    parseItems cfg (fuel + 1) h (s.withRest (w ++ 39 :: y)) =
      parseItems cfg (fuel + 1) h (s.withRest (39 :: y)) := by
  match w, hw with
  | [], _ => rfl
  | c :: w, hw =>
    have hc : c ≠ 125 := by
      rintro rfl
      have := hw 125 (by simp)
      revert this; decide
    have e : parseItem cfg h (s.withRest ((c :: w) ++ 39 :: y)) = parseItem cfg h (s.withRest (39 :: y)) := by
      have h0 := skipWhitespace_ok hs [] (39 :: y) (by simp) (by simp only [notSpaceHead]; decide)
      rw [List.nil_append] at h0
      unfold parseItem
      rw [SM.bind_ok (skipWhitespace_ok hs (c :: w) _ (white_isSpace hw) (by simp only [notSpaceHead]; decide)),
        SM.bind_ok h0]
    rw [parseItems]
    rw [List.cons_append] at e ⊢
    rw [SM.bind_ok (IStream.peek_cons hs _ _), if_neg (by simpa using hc),
      SM.bind_ok (IStream.peek_cons hs _ _), if_neg (by decide), SM.bind_apply, SM.bind_apply, e]

theorem parseItems_layout (cfg : Cfg) {fs : List Spec.Field} {items : Bytes} (hl : Spec.ItemsLayout fs items)
    (hok : ∀ f ∈ fs, FieldOk f) (hlen : items.length < BUFFER_SIZE)
    (h h' : HeaderInfo) (ha : applyFields h fs = .ok h')
    {s : IStream} (hs : s.good = true) (r : Bytes) (fuel : Nat) (hf : fs.length < fuel) :
    parseItems cfg fuel h (s.withRest (items ++ 125 :: r)) = (.ok h', s.withRest (125 :: r)) := by
  induction hl generalizing fuel h with
  | nil =>
    obtain ⟨fuel, rfl⟩ : ∃ k, fuel = k + 1 := ⟨fuel - 1, by simp at hf; omega⟩
    simp only [applyFields, Except.ok.injEq] at ha
    subst ha
    rw [List.nil_append, parseItems, SM.bind_ok (IStream.peek_cons hs _ _), if_pos rfl]
    rfl
  | @cons f fs w1 w2 w3 w4 v rest hw1 hw2 hw3 hw4 hv hrest ih =>
    obtain ⟨fuel, rfl⟩ : ∃ k, fuel = k + 2 := ⟨fuel - 2, by simp at hf; omega⟩
    have hlen' : v.length < BUFFER_SIZE ∧ rest.length < BUFFER_SIZE := by
      simp only [List.length_append] at hlen; omega
    rw [applyFields] at ha
    split at ha
    · rename_i h1 hh1
      have ih' := ih (fun g hg => hok g (by simp [hg])) hlen'.2 h1 ha (fuel + 1) (by simp at hf; omega)
      have e : w1 ++ [39] ++ f.key ++ [39] ++ w2 ++ [58] ++ w3 ++ v ++ [44] ++ w4 ++ rest ++ 125 :: r =
          w1 ++ 39 :: (f.key ++ 39 :: (w2 ++ 58 :: (w3 ++ (v ++ 44 :: (w4 ++ (rest ++ 125 :: r)))))) := by
        simp [List.append_assoc]
      rw [e, parseItems_white cfg h hs hw1]
      have hfok := hok f (by simp)
      have hw0 : Spec.White [] := by simp [Spec.White]
      cases hrest with
      | nil =>
        have hi := parseItem_ok cfg h h1 hw0 hw2 hw3 hw4 hv hfok hlen'.1 hh1 hs (125 :: r)
          (by simp only [notSpaceHead]; decide)
        rw [parseItems, SM.bind_ok (IStream.peek_cons hs _ _), if_neg (by decide)]
        simp only [List.nil_append] at hi ih' ⊢
        rw [SM.bind_ok hi, ih']
      | @cons g gs u1 u2 u3 u4 v' rest' hu1 hu2 hu3 hu4 hv' hrest' =>
        have e2 : u1 ++ [39] ++ g.key ++ [39] ++ u2 ++ [58] ++ u3 ++ v' ++ [44] ++ u4 ++ rest' ++ 125 :: r =
          u1 ++ 39 :: (g.key ++ 39 :: (u2 ++ 58 :: (u3 ++ (v' ++ 44 :: (u4 ++ (rest' ++ 125 :: r)))))) := by
          simp [List.append_assoc]
        rw [e2] at ih' ⊢
        rw [parseItems_white cfg h1 hs hu1] at ih'
        have hwu : Spec.White (w4 ++ u1) := by
          intro b hb
          rcases List.mem_append.1 hb with hb | hb
          · exact hw4 b hb
          · exact hu1 b hb
        have hi := parseItem_ok cfg h h1 hw0 hw2 hw3 hwu hv hfok hlen'.1 hh1 hs
          (39 :: (g.key ++ 39 :: (u2 ++ 58 :: (u3 ++ (v' ++ 44 :: (u4 ++ (rest' ++ 125 :: r)))))))
          (by simp only [notSpaceHead]; decide)
        rw [parseItems, SM.bind_ok (IStream.peek_cons hs _ _), if_neg (by decide)]
        simp only [List.nil_append, List.append_assoc] at hi ih' ⊢
        rw [SM.bind_ok hi, ih']
    · simp at ha

theorem itemsLayout_length {fs : List Spec.Field} {items : Bytes} (hl : Spec.ItemsLayout fs items) :
    fs.length ≤ items.length := by
  induction hl with
  | nil => simp
  | cons _ _ _ _ _ _ ih => simp only [List.length_append, List.length_cons, List.length_nil]; omega

/-- Parser correctness on the grammar. -/
theorem parseHeader_items (cfg : Cfg) {fs : List Spec.Field} {items : Bytes} (hi : Spec.ItemsLayout fs items)
    (hok : ∀ f ∈ fs, FieldOk f) (hlen : items.length < BUFFER_SIZE) (padding : Bytes) (h' : HeaderInfo)
    (ha : applyFields HeaderInfo.uninit fs = .ok h') :
    parseHeader cfg (b!"{" ++ items ++ b!"}" ++ padding) = .ok h' := by
  have hil := itemsLayout_length hi
  have e : b!"{" ++ items ++ b!"}" ++ padding = 123 :: (items ++ 125 :: padding) := by simp
  rw [e]
  unfold parseHeader
  have hs := IStream.ofBytes_good (123 :: (items ++ 125 :: padding))
  have e0 : IStream.ofBytes (123 :: (items ++ 125 :: padding)) =
    (IStream.ofBytes (123 :: (items ++ 125 :: padding))).withRest (123 :: (items ++ 125 :: padding)) := rfl
  rw [e0, SM.bind_ok (readChar_ok cfg hs 123 _),
    SM.bind_ok (parseItems_layout cfg hi hok hlen _ h' ha hs padding _
      (by simp only [List.length_cons, List.length_append]; omega)),
    SM.bind_ok (readChar_ok cfg hs 125 _)]
  rfl

theorem parseHeader_layout (cfg : Cfg) {fs : List Spec.Field} {text : Bytes} (hl : Spec.DictLayout fs text)
    (hok : ∀ f ∈ fs, FieldOk f) (hlen : text.length < BUFFER_SIZE) (h' : HeaderInfo)
    (ha : applyFields HeaderInfo.uninit fs = .ok h') : parseHeader cfg text = .ok h' := by
  obtain ⟨items, padding, hi, rfl⟩ := hl
  exact parseHeader_items cfg hi hok (by simp only [List.length_append] at hlen; omega) padding h' ha

end Npy
