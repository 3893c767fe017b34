import Verif.Proofs.Cut
/-!
# Reading shape texts that are not well formed
-/

namespace Npy
open Spec (White IsNumeral ShapePrefix NoExtent NotDigitFirst)

theorem notDigitFirst_head {r : Bytes} (h : NotDigitFirst r) : NoDigitHead r := by
  match r, h with
  | [], _ => trivial
  | b :: r, h =>
    have := h b rfl
    simp only [NoDigitHead, ← Bool.not_eq_true, isDigit_iff]
    exact this

theorem takeWhile_noDigit {r : Bytes} (h : NotDigitFirst r) : r.takeWhile isDigit = [] := by
  match r, notDigitFirst_head h with
  | [], _ => rfl
  | b :: r, h => simp only [NoDigitHead] at h; simp [h]

theorem white_append_dropWhile {ws r : Bytes} (hw : White ws) (hr : notSpaceHead r) :
    (ws ++ r).dropWhile isSpace = r := by
  have hw' := white_isSpace hw
  rw [List.dropWhile_append]
  have : ws.dropWhile isSpace = [] := by
    rw [List.dropWhile_eq_nil_iff]; exact hw'
  rw [this]
  match r, hr with
  | [], _ => rfl
  | b :: r, hr => simp only [notSpaceHead] at hr; simp [hr]

/-- No extent can be read there. -/
theorem extractSize_noExtent {s : IStream} (h : s.good = true) {ws r : Bytes} (hw : White ws) (hn : NoExtent r) :
    (IStream.extractSize (s.withRest (ws ++ r))).1 = .ok none := by
  cases hn with
  | empty =>
    rw [List.append_nil, extractSize_white h hw]
  | @junk c r h1 h2 h3 h4 =>
    have hsp : isSpace c = false := by
      rw [← Bool.not_eq_true, isSpace_iff]; exact h1
    have hdg : isDigit c = false := by
      rw [← Bool.not_eq_true, isDigit_iff]; exact h2
    have hd := white_append_dropWhile (r := c :: r) hw (by simp only [notSpaceHead]; exact hsp)
    simp only [IStream.extractSize, IStream.withRest_good, h, if_true, IStream.withRest_rest, hd]
    simp [h3, h4, hdg]
  | @sign c r hc hr =>
    have hsp : isSpace c = false := by rcases hc with rfl | rfl <;> decide
    have hd := white_append_dropWhile (r := c :: r) hw (by simp only [notSpaceHead]; exact hsp)
    have htw := takeWhile_noDigit hr
    simp only [IStream.extractSize, IStream.withRest_good, h, if_true, IStream.withRest_rest, hd]
    have hs : (c == 45 || c == 43) = true := by rcases hc with rfl | rfl <;> decide
    rw [hs]
    simp [htw]
  | @big ds n r hds hn hr =>
    have hdig := numeral_isDigit hds
    have hv := numeral_decValue hds
    obtain ⟨d, ds', rfl⟩ := List.exists_cons_of_ne_nil hds.nonempty
    have hd0 := hdig d (by simp)
    have hsp : isSpace d = false := by
      rw [← Bool.not_eq_true, isSpace_iff]; rw [isDigit_iff] at hd0; omega
    have hd := white_append_dropWhile (r := d :: ds' ++ r) hw (by simp only [List.cons_append, notSpaceHead]; exact hsp)
    have hne : (d == 45 || d == 43) = false := by
      rw [Bool.eq_false_iff]
      intro hh
      simp only [Bool.or_eq_true, beq_iff_eq] at hh
      rw [isDigit_iff] at hd0
      rcases hh with rfl | rfl <;> revert hd0 <;> decide
    have htw : (d :: (ds' ++ r)).takeWhile isDigit = d :: ds' := by
      rw [← List.cons_append, List.takeWhile_append_of_pos hdig, takeWhile_noDigit hr, List.append_nil]
    rw [List.cons_append] at hd ⊢
    simp only [IStream.extractSize, IStream.withRest_good, h, if_true, IStream.withRest_rest, hd, hne,
      Bool.false_eq_true, if_false, htw, hv]
    rw [if_neg (by simp), if_neg (by simp only [SIZE]; omega)]
  | @signBig c ds n r hc hds hn hr =>
    have hdig := numeral_isDigit hds
    have hv := numeral_decValue hds
    have hsp : isSpace c = false := by rcases hc with rfl | rfl <;> decide
    have hd := white_append_dropWhile (r := c :: (ds ++ r)) hw (by simp only [notSpaceHead]; exact hsp)
    have hs : (c == 45 || c == 43) = true := by rcases hc with rfl | rfl <;> decide
    have htw : (ds ++ r).takeWhile isDigit = ds := by
      rw [List.takeWhile_append_of_pos hdig, takeWhile_noDigit hr, List.append_nil]
    simp only [IStream.extractSize, IStream.withRest_good, h, if_true, IStream.withRest_rest, hd, hs, htw, hv]
    rw [if_neg (by simpa using hds.nonempty), if_neg (by simp only [SIZE]; omega)]

/-- A number with a minus sign. -/
theorem extractSize_neg {s : IStream} (h : s.good = true) {ws ds r : Bytes} {n : Nat} (hw : White ws)
    (hds : IsNumeral ds n) (hr : NotDigitFirst r) (hn : n < SIZE) :
    IStream.extractSize (s.withRest (ws ++ 45 :: (ds ++ r))) =
      (.ok (some ((SIZE - n) % SIZE)), { s.withRest r with eof := r.isEmpty }) := by
  have hdig := numeral_isDigit hds
  have hv := numeral_decValue hds
  have hd := white_append_dropWhile (r := 45 :: (ds ++ r)) hw (by simp only [notSpaceHead]; decide)
  have htw : (ds ++ r).takeWhile isDigit = ds := by
    rw [List.takeWhile_append_of_pos hdig, takeWhile_noDigit hr, List.append_nil]
  have hdw : (ds ++ r).dropWhile isDigit = r := by
    have : ds.dropWhile isDigit = [] := by rw [List.dropWhile_eq_nil_iff]; exact hdig
    rw [List.dropWhile_append, this]
    match r, notDigitFirst_head hr with
    | [], _ => rfl
    | b :: r, hb => simp only [NoDigitHead] at hb; simp [hb]
  have hne : ds.isEmpty = false := by
    cases ds with
    | nil => exact absurd rfl hds.nonempty
    | cons => rfl
  simp only [IStream.extractSize, IStream.withRest_good, h, if_true, IStream.withRest_rest, hd, beq_self_eq_true,
    Bool.true_or, htw, hdw, hv, hne, Bool.false_eq_true, if_false, hn]
  rfl

/-- The shape loop over well-formed leading extents. -/
theorem readShapeLoop_prefix (cfg : Cfg) {ns : List Nat} {pre : Bytes} (hp : ShapePrefix ns pre)
    (hn : ∀ n ∈ ns, n < SIZE) {s : IStream} (h : s.good = true) (rest : Bytes) (fuel : Nat) (acc : List Nat) :
    (readShapeLoop cfg (ns.length + fuel + 1) acc (s.withRest (pre ++ rest))).1 =
      (readShapeLoop cfg (fuel + 1) (acc ++ ns) (s.withRest rest)).1 := by
  induction hp generalizing acc with
  | nil => simp
  | @cons ws ds r n ns hws hds hr ih =>
    have e : (n :: ns).length + fuel + 1 = (ns.length + fuel) + 2 := by simp; omega
    rw [e, List.append_assoc, readShapeLoop_cons cfg hws hds (hn n (by simp)) h,
      ih (fun m hm => hn m (by simp [hm]))]
    simp

/-- Reading stops where no extent can be read. -/
theorem readShapeLoop_stop (cfg : Cfg) {ns : List Nat} {pre ws bad : Bytes} (hp : ShapePrefix ns pre)
    (hn : ∀ n ∈ ns, n < SIZE) (hw : White ws) (hb : NoExtent bad) {s : IStream} (h : s.good = true) (fuel : Nat)
    (hf : ns.length < fuel) :
    (readShapeLoop cfg fuel [] (s.withRest (pre ++ (ws ++ bad)))).1 = .ok ns := by
  obtain ⟨k, rfl⟩ : ∃ k, fuel = ns.length + k + 1 := ⟨fuel - ns.length - 1, by omega⟩
  rw [readShapeLoop_prefix cfg hp hn h, readShapeLoop_none cfg k _ (extractSize_noExtent h hw hb)]
  simp

/-- An extent (possibly negative) followed by something that is not a comma, where reading stops. -/
theorem readShapeLoop_last (cfg : Cfg) {ns : List Nat} {pre one ws bad : Bytes} {m : Nat} (hp : ShapePrefix ns pre)
    (hn : ∀ n ∈ ns, n < SIZE) (hw : White ws) (hb : NoExtent bad) (hne : ws ≠ [] ∨ bad.head? ≠ some 44)
    {s : IStream} (h : s.good = true)
    (ho : IStream.extractSize (s.withRest (one ++ (ws ++ bad))) =
      (.ok (some m), { s.withRest (ws ++ bad) with eof := (ws ++ bad).isEmpty })) (fuel : Nat)
    (hf : ns.length + 1 < fuel) :
    (readShapeLoop cfg fuel [] (s.withRest (pre ++ (one ++ (ws ++ bad))))).1 = .ok (ns ++ [m]) := by
  obtain ⟨k, rfl⟩ : ∃ k, fuel = ns.length + (k + 1) + 1 := ⟨fuel - ns.length - 2, by omega⟩
  obtain ⟨he, hfl⟩ := (IStream.good_iff s).1 h
  rw [readShapeLoop_prefix cfg hp hn h, List.nil_append, readShapeLoop, SM.bind_ok ho]
  simp only []
  match hr : ws ++ bad with
  | [] =>
    have hb : ({ s.withRest [] with eof := ([] : Bytes).isEmpty } : IStream).good = false := by simp [IStream.good]
    rw [SM.bind_ok (peek_bad hb), if_neg (by simp),
      readShapeLoop_none cfg k _ (by rw [extractSize_bad (by simp [IStream.good, IStream.setFail])])]
  | b :: r =>
    have hs : ({ s.withRest (b :: r) with eof := (b :: r).isEmpty } : IStream) = s.withRest (b :: r) := by
      simp [IStream.withRest, he]
    have h44 : b ≠ 44 := by
      rintro rfl
      match ws, hw, hne, hr with
      | [], _, hne, hr =>
        rw [List.nil_append] at hr
        rw [hr] at hne
        simp at hne
      | c :: ws, hw, _, hr =>
        simp only [List.cons_append, List.cons.injEq] at hr
        have := hw c (by simp)
        rw [hr.1] at this
        revert this; decide
    rw [hs, SM.bind_ok (IStream.peek_cons h b r), if_neg (by simpa using h44), ← hr,
      readShapeLoop_none cfg k _ (extractSize_noExtent h hw hb)]

/-- A dictionary with an arbitrary shape text, in front of the other keys. -/
theorem parseHeader_shapeFirst (cfg : Cfg) {text d : Bytes} {f : Bool} {ns : List Nat} {t : Option DType}
    {e : Option Endian} {m : Option Nat} (hd : 39 ∉ d) (hdl : d.length < 1000)
    (hd' : ∀ h, setDescr h d = .ok { h with dtype := t, endianness := e, maxElementLength := m })
    (ht : 41 ∉ text) (hlen : text.length < BUFFER_SIZE)
    (hloop : (readShapeLoop cfg (text.length + 1) [] (IStream.ofBytes text)).1 = .ok ns) (padding : Bytes) :
    parseHeader cfg (b!"{'shape': (" ++ text ++ b!"), 'descr': '" ++ d ++ b!"', 'fortran_order': " ++ Spec.pyBool f ++
      b!", }" ++ padding) = .ok
      { dtype := t, endianness := e, fortranOrder := some f, shape := ns, maxElementLength := m } := by
  have hw0 : Spec.White [] := by simp [Spec.White]
  have hw1 : Spec.White [32] := by simp [Spec.White]
  have hlay : Spec.ItemsLayout [.descr d, .fortranOrder f]
      (b!"'descr': '" ++ d ++ b!"', 'fortran_order': " ++ Spec.pyBool f ++ b!", ") := by
    have := Spec.ItemsLayout.cons hw0 hw0 hw1 hw1 (Spec.ValueLayout.descr (code := d))
      (.cons hw0 hw0 hw1 hw1 (Spec.ValueLayout.fortranOrder (b := f)) .nil)
    simpa [Spec.Field.key] using this
  obtain ⟨items, hitems⟩ : ∃ i, i = b!"'descr': '" ++ d ++ b!"', 'fortran_order': " ++ Spec.pyBool f ++ b!", " := ⟨_, rfl⟩
  rw [← hitems] at hlay
  have hil : items.length < BUFFER_SIZE := by
    rw [hitems]; cases f <;> simp [Spec.pyBool, BUFFER_SIZE] <;> omega
  obtain ⟨r2, hr2⟩ : ∃ r2, r2 = items ++ 125 :: padding := ⟨_, rfl⟩
  obtain ⟨r1, hr1⟩ : ∃ r1, r1 = 39 :: (b!"shape" ++ 39 :: ([] ++ 58 :: (b!" " ++ (40 :: (text ++ 41 :: (44 :: (b!" " ++ r2))))))) :=
    ⟨_, rfl⟩
  have e0 : b!"{'shape': (" ++ text ++ b!"), 'descr': '" ++ d ++ b!"', 'fortran_order': " ++ Spec.pyBool f ++
      b!", }" ++ padding = 123 :: r1 := by
    rw [hr1, hr2, hitems]; simp
  rw [e0]
  unfold parseHeader
  have hs := IStream.ofBytes_good (123 :: r1)
  have e1 : IStream.ofBytes (123 :: r1) = (IStream.ofBytes (123 :: r1)).withRest (123 :: r1) := rfl
  obtain ⟨k, hk⟩ : ∃ k, (123 :: r1).length + 1 = k + 3 + 1 := ⟨(123 :: r1).length - 3, by rw [hr1]; simp⟩
  rw [e1, hk, SM.bind_ok (readChar_ok cfg hs 123 _)]
  generalize IStream.ofBytes (123 :: r1) = s at hs
  have hr2h : notSpaceHead r2 := by rw [hr2, hitems]; simp only [List.cons_append, notSpaceHead]; decide
  have hshape : readShape cfg (s.withRest (40 :: (text ++ 41 :: (44 :: (b!" " ++ r2))))) =
      (.ok ns, s.withRest (44 :: (b!" " ++ r2))) := by
    unfold readShape
    rw [SM.bind_ok (readChar_ok cfg hs 40 _), SM.bind_ok (readTo_ok hs text _ 41 ht hlen),
      SM.bind_ok (readChar_ok cfg hs 41 _), SM.lift_apply, hloop]
  have hval : ((do let shape ← readShape cfg; pure { HeaderInfo.uninit with shape := shape }) : IM HeaderInfo)
      (s.withRest (40 :: (text ++ 41 :: (44 :: (b!" " ++ r2))))) =
        (.ok { HeaderInfo.uninit with shape := ns }, s.withRest (44 :: (b!" " ++ r2))) := by
    rw [SM.bind_ok hshape]; rfl
  have hskip := skipWhitespace_ok hs [] r1 (by simp) (by rw [hr1]; simp only [notSpaceHead]; decide)
  rw [List.nil_append] at hskip
  have hitem : parseItem cfg HeaderInfo.uninit (s.withRest r1) =
      (.ok { HeaderInfo.uninit with shape := ns }, s.withRest r2) := by
    unfold parseItem
    rw [SM.bind_ok hskip, hr1, SM.bind_ok (readString_ok cfg hs b!"shape" _ (by decide) (by decide)),
      SM.bind_ok (skipWhitespace_ok hs [] _ (by simp) (by simp only [notSpaceHead]; decide)),
      SM.bind_ok (readChar_ok cfg hs 58 _),
      SM.bind_ok (skipWhitespace_ok hs b!" " _ (white_isSpace hw1) (by simp only [notSpaceHead]; decide))]
    unfold parseValue
    rw [if_neg (by decide), if_neg (by decide), if_pos (by decide)]
    rw [SM.bind_ok hval, SM.bind_ok (readChar_ok cfg hs 44 _),
      SM.bind_ok (skipWhitespace_ok hs b!" " _ (white_isSpace hw1) hr2h)]
    rfl
  have hlast := parseItems_layout cfg hlay
    (h := { HeaderInfo.uninit with shape := ns })
    (h' := { dtype := t, endianness := e, fortranOrder := some f, shape := ns, maxElementLength := m })
    (by intro g hg
        simp only [List.mem_cons, List.not_mem_nil, or_false] at hg
        rcases hg with rfl | rfl
        · exact hd
        · trivial) hil
    (by simp [applyFields, applyField, hd']) hs padding (k + 3) (by simp)
  rw [← hr2] at hlast
  have hall : parseItems cfg (k + 3 + 1) HeaderInfo.uninit (s.withRest r1) =
      (.ok { dtype := t, endianness := e, fortranOrder := some f, shape := ns, maxElementLength := m },
        s.withRest (125 :: padding)) := by
    have hpk : IStream.peek (s.withRest r1) = (.ok (some 39), s.withRest r1) := by
      rw [hr1]; exact IStream.peek_cons hs _ _
    rw [parseItems, SM.bind_ok hpk, if_neg (by decide), SM.bind_ok hitem, hlast]
  rw [SM.bind_ok hall, SM.bind_ok (readChar_ok cfg hs 125 _)]
  rfl

end Npy
