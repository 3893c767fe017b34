import Verif.Proofs.Npy
/-! Dictionaries whose `descr` the parser refuses. -/

namespace Npy

theorem stoi_decimal_big (n : Nat) (hn : 2 ^ 31 ≤ n) : stoi (decimal n) = .error (.throw (.outOfRange .std)) := by
  have hd := isDigit_decimal n
  have hne := decimal_ne_nil n
  have hv := decValue_decimal n
  match hdec : decimal n, hne with
  | d :: ds, _ =>
    rw [hdec] at hd hv
    have h0 := hd d (by simp)
    have h1 : isSpace d = false := digit_not_space h0
    have h2 : d ≠ 45 := by rintro rfl; exact absurd h0 (by decide)
    have h3 : d ≠ 43 := by rintro rfl; exact absurd h0 (by decide)
    have h4 : (d :: ds).takeWhile isDigit = d :: ds := by
      rw [List.takeWhile_eq_self_iff]; exact hd
    unfold stoi
    simp only [List.dropWhile_cons, h1, Bool.false_eq_true, if_false]
    split
    · rename_i hq; exact absurd (List.cons.inj hq).1 h2
    · rename_i hq; exact absurd (List.cons.inj hq).1 h3
    · simp only [h4, hv, List.isEmpty_cons, Bool.false_eq_true, if_false]
      rw [if_pos]
      omega

theorem setDescr_wide_big (h : HeaderInfo) (len : Nat) (hl : 2 ^ 31 ≤ len) (big : Bool) :
    setDescr h (Spec.descrU len big) = .error (.throw (.outOfRange .std)) := by
  unfold Spec.descrU
  rw [← decimal_eq_spec]
  cases big <;>
    simp only [Bool.false_eq_true, if_false, if_true, List.cons_append, List.nil_append, setDescr, List.head?_cons,
      List.drop_succ_cons, List.drop_zero, stoi_decimal_big len hl]

/-- One item with a value that is refused. -/
theorem parseItem_err (cfg : Cfg) (h : HeaderInfo) {f : Spec.Field} {v w1 w2 w3 : Bytes} {e : Err}
    (hw1 : Spec.White w1) (hw2 : Spec.White w2) (hw3 : Spec.White w3)
    (hv : Spec.ValueLayout f v) (hok : FieldOk f) (hlen : v.length < BUFFER_SIZE) (ha : applyField h f = .error e)
    {s : IStream} (hs : s.good = true) (r : Bytes) :
    (parseItem cfg h (s.withRest (w1 ++ 39 :: (f.key ++ 39 :: (w2 ++ 58 :: (w3 ++ (v ++ r))))))).1 = .error e := by
  unfold parseItem
  rw [SM.bind_ok (skipWhitespace_ok hs w1 _ (white_isSpace hw1) (by simp only [notSpaceHead]; decide)),
    SM.bind_ok (readString_ok cfg hs f.key _ (key_no_quote f) (key_length f)),
    SM.bind_ok (skipWhitespace_ok hs w2 _ (white_isSpace hw2) (by simp only [notSpaceHead]; decide)),
    SM.bind_ok (readChar_ok cfg hs 58 _),
    SM.bind_ok (skipWhitespace_ok hs w3 _ (white_isSpace hw3) (value_head hv _))]
  cases hv with
  | @descr code =>
    have hp : parseValue cfg h (Spec.Field.descr code).key (s.withRest ([39] ++ code ++ [39] ++ r)) = (.error e, s.withRest r) := by
      unfold parseValue
      simp only [Spec.Field.key]
      rw [if_pos (by decide)]
      have := readString_ok cfg hs code r hok (by simp at hlen; omega)
      simp only [List.cons_append, List.nil_append, List.append_assoc]
      rw [SM.bind_ok this, SM.lift_apply]
      simp only [applyField] at ha
      rw [ha]
    rw [SM.bind_error hp]
  | fortranOrder => simp [applyField] at ha
  | shape => simp [applyField] at ha

theorem parseItems_layout_err (cfg : Cfg) {fs : List Spec.Field} {items : Bytes} (hl : Spec.ItemsLayout fs items)
    (hok : ∀ f ∈ fs, FieldOk f) (hlen : items.length < BUFFER_SIZE) (h : HeaderInfo) {err : Err}
    (ha : applyFields h fs = .error err) {s : IStream} (hs : s.good = true) (r : Bytes) (fuel : Nat) (hf : fs.length < fuel) :
    (parseItems cfg fuel h (s.withRest (items ++ 125 :: r))).1 = .error err := by
  induction hl generalizing fuel h with
  | nil => simp [applyFields] at ha
  | @cons f fs w1 w2 w3 w4 v rest hw1 hw2 hw3 hw4 hv hrest ih =>
    obtain ⟨fuel, rfl⟩ : ∃ k, fuel = k + 2 := ⟨fuel - 2, by simp at hf; omega⟩
    have hlen' : v.length < BUFFER_SIZE ∧ rest.length < BUFFER_SIZE := by
      simp only [List.length_append] at hlen; omega
    have e : w1 ++ [39] ++ f.key ++ [39] ++ w2 ++ [58] ++ w3 ++ v ++ [44] ++ w4 ++ rest ++ 125 :: r =
        w1 ++ 39 :: (f.key ++ 39 :: (w2 ++ 58 :: (w3 ++ (v ++ 44 :: (w4 ++ (rest ++ 125 :: r)))))) := by
      simp [List.append_assoc]
    have hfok := hok f (by simp)
    have hw0 : Spec.White [] := by simp [Spec.White]
    rw [e, parseItems_white cfg h hs hw1]
    rw [applyFields] at ha
    split at ha
    · rename_i h1 hh1
      have ih' := ih (fun g hg => hok g (by simp [hg])) hlen'.2 h1 ha (fuel + 1) (by simp at hf; omega)
      cases hrest with
      | nil => simp [applyFields] at ha
      | @cons g gs u1 u2 u3 u4 v' rest' hu1 hu2 hu3 hu4 hv' hrest' =>
        have e2 : u1 ++ [39] ++ g.key ++ [39] ++ u2 ++ [58] ++ u3 ++ v' ++ [44] ++ u4 ++ rest' ++ 125 :: r =
          u1 ++ 39 :: (g.key ++ 39 :: (u2 ++ 58 :: (u3 ++ (v' ++ 44 :: (u4 ++ (rest' ++ 125 :: r)))))) := by
          simp [List.append_assoc]
        rw [e2] at ih' ⊢
        rw [parseItems_white cfg h1 hs hu1] at ih'
        have hwu : Spec.White (w4 ++ u1) := by
          intro b hb
          rcases List.mem_append.1 hb with hb | hb
          · exact hw4 b hb
          · exact hu1 b hb
        have hi := parseItem_ok cfg h h1 hw0 hw2 hw3 hwu hv hfok hlen'.1 hh1 hs
          (39 :: (g.key ++ 39 :: (u2 ++ 58 :: (u3 ++ (v' ++ 44 :: (u4 ++ (rest' ++ 125 :: r)))))))
          (by simp only [notSpaceHead]; decide)
        rw [parseItems, SM.bind_ok (IStream.peek_cons hs _ _), if_neg (by decide)]
        simp only [List.nil_append, List.append_assoc] at hi ih' ⊢
        rw [SM.bind_ok hi, ih']
    · rename_i e' he'
      simp only [Except.error.injEq] at ha
      subst ha
      have hi := parseItem_err cfg h hw0 hw2 hw3 hv hfok hlen'.1 he' hs (44 :: (w4 ++ (rest ++ 125 :: r)))
      rw [parseItems, SM.bind_ok (IStream.peek_cons hs _ _), if_neg (by decide)]
      simp only [List.nil_append] at hi ⊢
      rw [SM.bind_error (Prod.ext hi rfl)]

theorem parseHeader_items_err (cfg : Cfg) {fs : List Spec.Field} {items : Bytes} (hi : Spec.ItemsLayout fs items)
    (hok : ∀ f ∈ fs, FieldOk f) (hlen : items.length < BUFFER_SIZE) (padding : Bytes) {err : Err}
    (ha : applyFields HeaderInfo.uninit fs = .error err) :
    parseHeader cfg (b!"{" ++ items ++ b!"}" ++ padding) = .error err := by
  have hil := itemsLayout_length hi
  have e : b!"{" ++ items ++ b!"}" ++ padding = 123 :: (items ++ 125 :: padding) := by simp
  rw [e]
  unfold parseHeader
  have hs := IStream.ofBytes_good (123 :: (items ++ 125 :: padding))
  have e0 : IStream.ofBytes (123 :: (items ++ 125 :: padding)) =
    (IStream.ofBytes (123 :: (items ++ 125 :: padding))).withRest (123 :: (items ++ 125 :: padding)) := rfl
  have hp := parseItems_layout_err cfg hi hok hlen _ ha hs padding ((123 :: (items ++ 125 :: padding)).length + 1)
    (by simp only [List.length_cons, List.length_append]; omega)
  rw [e0, SM.bind_ok (readChar_ok cfg hs 123 _), SM.bind_error (Prod.ext hp rfl)]

/-- The header as written, with a `descr` that is refused. -/
theorem readNpyHeader_saved_err (cfg : Cfg) {s : IStream} (h : s.good = true) {d : Bytes} {f : Bool} {ns : List Nat}
    {err : Err} (hd : 39 ∉ d) (hd' : setDescr HeaderInfo.uninit d = .error err) (hn : ∀ n ∈ ns, n < SIZE)
    (hlen : (dictionaryText d f ns).length ≤ 245) (r : Bytes) :
    (readNpyHeader cfg (s.withRest (headerBytes d f ns ++ r))).1 = .error err := by
  have hl : paddedDictLength (dictionaryText d f ns).length < 256 := (paddedDictLength_lt_256 _).2 hlen
  have e := readNpyHeader_v1 cfg h (UInt8.ofNat (paddedDictLength (dictionaryText d f ns).length)) 0
    (dictionaryText d f ns ++ headerEnd (dictionaryText d f ns).length) r (by
      rw [List.length_append, headerEnd_length]
      simp; omega)
  rw [headerBytes, staticHeader, List.append_assoc, List.append_assoc]
  rw [List.append_assoc] at e
  rw [e]
  have hlay := headerDict_layout d f ns (headerEnd (dictionaryText d f ns).length)
  obtain ⟨items, padding, hi, heq⟩ := hlay
  have hlen2 : (dictionaryText d f ns ++ headerEnd (dictionaryText d f ns).length).length < BUFFER_SIZE := by
    rw [List.length_append, headerEnd_length, BUFFER_SIZE]; omega
  rw [heq] at hlen2 ⊢
  refine parseHeader_items_err cfg hi ?_ (by simp only [List.length_append] at hlen2; omega) padding ?_
  · intro g hg
    simp only [List.mem_cons, List.not_mem_nil, or_false] at hg
    rcases hg with rfl | rfl | rfl
    · exact hd
    · trivial
    · exact hn
  · simp [applyFields, applyField, hd']

end Npy
