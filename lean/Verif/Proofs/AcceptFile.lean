import Verif.Proofs.AcceptUb
/-! Whole files. -/

namespace Npy
open Spec (White IsNumeral Field DictRead DescrRead DescrsFine NoDescr EmptyDescr Describes FileParts HeaderCut zeroPadded lastDescr lastOrder
  lastShape)

/-! ### The last item of each kind counts -/

theorem lastDescr_cons (f : Field) (fs : List Field) : lastDescr (f :: fs) =
    (lastDescr fs).or (match f with | .descr code => some code | _ => none) := by
  cases f <;> simp [lastDescr, List.findSome?_append]

theorem lastOrder_cons (f : Field) (fs : List Field) : lastOrder (f :: fs) =
    (lastOrder fs).or (match f with | .fortranOrder b => some b | _ => none) := by
  cases f <;> simp [lastOrder, List.findSome?_append]

theorem lastShape_cons (f : Field) (fs : List Field) : lastShape (f :: fs) =
    (lastShape fs).or (match f with | .shape ns => some ns | _ => none) := by
  cases f <;> simp [lastShape, List.findSome?_append]

theorem applyFields_last {fs : List Field} {h h' : HeaderInfo} (ha : applyFields h fs = .ok h') :
    h'.shape = (lastShape fs).getD h.shape ∧ h'.fortranOrder = (lastOrder fs).or h.fortranOrder ∧
    (lastDescr fs = none → h'.dtype = h.dtype ∧ h'.endianness = h.endianness ∧ h'.maxElementLength = h.maxElementLength) ∧
    (∀ code, lastDescr fs = some code → ∃ t e m, DescrRead code t e m ∧
      h'.dtype = some t ∧ h'.endianness = some e ∧ h'.maxElementLength = some m) := by
  induction fs generalizing h with
  | nil =>
    simp only [applyFields, Except.ok.injEq] at ha
    subst ha
    exact ⟨rfl, rfl, fun _ => ⟨rfl, rfl, rfl⟩, fun code hc => by simp [lastDescr] at hc⟩
  | cons f fs ih =>
    rw [applyFields] at ha
    split at ha
    · rename_i h1 hf
      obtain ⟨i1, i2, i3, i4⟩ := ih ha
      rw [lastDescr_cons, lastOrder_cons, lastShape_cons]
      cases f with
      | descr code =>
        rcases setDescr_cases code with ⟨t, e, m, hr, hh⟩ | ⟨_, hh⟩ | ⟨_, x, hh⟩
        · rw [applyField, hh h] at hf
          simp only [Except.ok.injEq] at hf
          subst hf
          refine ⟨by simpa using i1, by simpa using i2, ?_, ?_⟩
          · intro hl
            simp at hl
          · intro c hl
            match hq : lastDescr fs with
            | none =>
              rw [hq] at hl
              simp only [Option.or_some, Option.getD_none, Option.some.injEq] at hl
              subst hl
              obtain ⟨j1, j2, j3⟩ := i3 hq
              exact ⟨t, e, m, hr, j1, j2, j3⟩
            | some c' =>
              rw [hq] at hl
              simp only [Option.or_some, Option.getD_some, Option.some.injEq] at hl
              subst hl
              exact i4 _ hq
        · rw [applyField, hh h] at hf; simp at hf
        · rw [applyField, hh h] at hf; simp at hf
      | fortranOrder b =>
        simp only [applyField, Except.ok.injEq] at hf
        subst hf
        refine ⟨by simpa using i1, ?_, by simpa using i3, by simpa using i4⟩
        rw [i2]
        cases lastOrder fs <;> rfl
      | shape ns =>
        simp only [applyField, Except.ok.injEq] at hf
        subst hf
        refine ⟨?_, by simpa using i2, by simpa using i3, by simpa using i4⟩
        rw [i1]
        cases lastShape fs <;> rfl
    · simp at ha

theorem describes_of_applyFields {fs : List Field} {info : HeaderInfo} (ha : applyFields HeaderInfo.uninit fs = .ok info) :
    Describes fs info := by
  obtain ⟨h1, h2, h3, h4⟩ := applyFields_last ha
  exact ⟨h1, by rw [h2]; simp [HeaderInfo.uninit], h3, h4⟩

/-- A `descr` is taken for one type, order and length only. -/
theorem descrRead_unique {code : Bytes} {t t' : DType} {e e' : Endian} {m m' : Nat} (h : DescrRead code t e m) (h' : DescrRead code t' e' m') :
    t = t' ∧ e = e' ∧ m = m' := by
  have h1 := setDescr_read h HeaderInfo.uninit
  rw [setDescr_read h' HeaderInfo.uninit] at h1
  simp only [Except.ok.injEq, HeaderInfo.mk.injEq, Option.some.injEq] at h1
  exact ⟨h1.1.symm, h1.2.1.symm, h1.2.2.2.2.symm⟩

theorem describes_unique {fs : List Field} {a b : HeaderInfo} (ha : Describes fs a) (hb : Describes fs b) : a = b := by
  obtain ⟨at1, ae, ao, as1, am⟩ := a
  obtain ⟨bt, be, bo, bs, bm⟩ := b
  have h1 : as1 = bs := ha.shape.trans hb.shape.symm
  have h2 : ao = bo := ha.order.trans hb.order.symm
  subst h1 h2
  match hl : lastDescr fs with
  | none =>
    obtain ⟨x1, x2, x3⟩ := ha.noDescr hl
    obtain ⟨y1, y2, y3⟩ := hb.noDescr hl
    simp only at x1 x2 x3 y1 y2 y3
    subst x1 x2 x3 y1 y2 y3
    rfl
  | some code =>
    obtain ⟨t, e, m, hr, x1, x2, x3⟩ := ha.descr code hl
    obtain ⟨t', e', m', hr', y1, y2, y3⟩ := hb.descr code hl
    obtain ⟨rfl, rfl, rfl⟩ := descrRead_unique hr hr'
    simp only at x1 x2 x3 y1 y2 y3
    subst x1 x2 x3 y1 y2 y3
    rfl

theorem applyFields_iff (fs : List Field) (info : HeaderInfo) :
    applyFields HeaderInfo.uninit fs = .ok info ↔ DescrsFine fs ∧ Describes fs info := by
  constructor
  · exact fun ha => ⟨fine_of_applyFields ha, describes_of_applyFields ha⟩
  · rintro ⟨hf, hd⟩
    obtain ⟨h', ha⟩ := applyFields_fine hf HeaderInfo.uninit
    rw [ha, describes_unique (describes_of_applyFields ha) hd]

/-- Only `descr` items that are fine come before an undefined one. -/
theorem parse_ub {cfg : Cfg} (hn : cfg.ndebug = true) (text : Bytes) :
    parseHeader cfg text = .error .ub ↔ EmptyDescr text := by
  have hM : ∀ a b : Byte, Spec.Mark (!cfg.ndebug) a b := fun a b => by simp [Spec.Mark, hn]
  have hF : (!cfg.ndebug) = false := by rw [hn]; rfl
  have hs : (IStream.ofBytes text).good = true := rfl
  generalize hS : IStream.ofBytes text = S at hs
  have hw : S = S.withRest text := by rw [← hS]; rfl
  constructor
  · intro hp
    unfold parseHeader at hp
    rw [hS, hw] at hp
    match text with
    | [] =>
      obtain ⟨s1, h1, b1⟩ := rel_char_end hn 123 hs
      rw [SM.bind_ok h1, SM.bind_error (Prod.ext (parseItems_bad cfg _ HeaderInfo.uninit b1) rfl)] at hp
      simp [earlyEnd, hn] at hp
    | c :: rest =>
      rw [SM.bind_ok (char_read cfg hs (hM 123 c) rest)] at hp
      match hi : parseItems cfg ((c :: rest).length + 1) HeaderInfo.uninit (S.withRest rest) with
      | (.ok h, s1) =>
        obtain ⟨s2, h2⟩ := rel_char hn 125 s1
        rw [SM.bind_ok hi, SM.bind_ok h2] at hp
        simp at hp
      | (.error e, s1) =>
        rw [SM.bind_error hi] at hp
        simp only [Except.error.injEq] at hp
        subst hp
        rcases items_error hn _ hs (by simp only [List.length_cons]; omega) (congrArg Prod.fst hi) with ⟨x, hx⟩ | ⟨_, fs, h', w, q, z, hl, ha, hrest⟩
        · simp at hx
        · exact ⟨c, rest, fs, w, q, z, rfl, hl, fine_of_applyFields ha, hrest⟩
  · rintro ⟨c, rest, fs, w, q, z, rfl, hl, hf, hww, hq, hq1, hz⟩
    obtain ⟨h', ha⟩ := applyFields_fine hf HeaderInfo.uninit
    unfold parseHeader
    rw [hS, hw, SM.bind_ok (char_read cfg hs (hM 123 c) rest)]
    have hlen := itemsRead_length hl
    simp only [List.length_append, List.length_cons] at hlen
    obtain ⟨k, hk⟩ : ∃ k, (c :: rest).length + 1 = fs.length + (k + 1) := ⟨(c :: rest).length - fs.length, by simp only [List.length_cons]; omega⟩
    rw [← hF] at hl
    have : (parseItems cfg ((c :: rest).length + 1) HeaderInfo.uninit (S.withRest rest)).1 = .error .ub := by
      rw [hk, items_read cfg hl hs _ _ ha, parseItems]
      obtain ⟨b, hb, hp⟩ := items_peek (x := b!"descr" ++ z) hs hww hq1
      rw [SM.bind_ok hp, if_neg (by simpa using hb)]
      have hu := item_ub hn h' (s := S) hs hww hq hz
      rw [SM.bind_error (Prod.ext hu rfl)]
    rw [SM.bind_error (Prod.ext this rfl)]

theorem parse_error {cfg : Cfg} (hn : cfg.ndebug = true) (text : Bytes) {e : Err} (he : parseHeader cfg text = .error e) :
    e = .ub ∨ ∃ x, e = .throw x := by
  have hM : ∀ a b : Byte, Spec.Mark (!cfg.ndebug) a b := fun a b => by simp [Spec.Mark, hn]
  have hs : (IStream.ofBytes text).good = true := rfl
  generalize hS : IStream.ofBytes text = S at hs
  have hw : S = S.withRest text := by rw [← hS]; rfl
  unfold parseHeader at he
  rw [hS, hw] at he
  match text with
  | [] =>
    obtain ⟨s1, h1, b1⟩ := rel_char_end hn 123 hs
    rw [SM.bind_ok h1, SM.bind_error (Prod.ext (parseItems_bad cfg _ HeaderInfo.uninit b1) rfl)] at he
    simp only [earlyEnd, hn, if_true, Except.error.injEq] at he
    exact .inr ⟨_, he.symm⟩
  | c :: rest =>
    rw [SM.bind_ok (char_read cfg hs (hM 123 c) rest)] at he
    match hi : parseItems cfg ((c :: rest).length + 1) HeaderInfo.uninit (S.withRest rest) with
    | (.ok h, s1) =>
      obtain ⟨s2, h2⟩ := rel_char hn 125 s1
      rw [SM.bind_ok hi, SM.bind_ok h2] at he
      simp at he
    | (.error e', s1) =>
      rw [SM.bind_error hi] at he
      simp only [Except.error.injEq] at he
      subst he
      rcases items_error hn _ hs (by simp only [List.length_cons]; omega) (congrArg Prod.fst hi) with ⟨x, hx⟩ | ⟨hu, _⟩
      · exact .inr ⟨x, hx⟩
      · exact .inl hu

/-! ### The bytes in front of the dictionary -/

theorem readDictionary_any {s : IStream} (h : s.good = true) (rest : Bytes) {n : Nat} (hn : n ≤ VECTOR_CHAR_MAX) :
    readDictionary n (s.withRest rest) = (.ok (zeroPadded n rest), (s.withRest rest).adv n) := by
  unfold readDictionary
  rw [if_neg (by omega)]
  obtain ⟨bs, h1, h2⟩ := read_gen (s := s.withRest rest) (.inl h) n
  rw [SM.bind_ok h1, h2]
  rfl

theorem adv_rest {s : IStream} (n : Nat) : (s.adv n).rest = s.rest.drop n := by
  unfold IStream.adv
  split
  · rfl
  · show [] = _
    rw [List.drop_of_length_le (by omega)]

/-- The first ten bytes. -/
theorem first_ten {m rest : Bytes} (hm : m.length = 6) (u v b8 b9 : Byte) :
    ∃ m0 m1 m2 m3 m4 m5, m = [m0, m1, m2, m3, m4, m5] ∧
      ∀ (s : IStream), s.good = true → IStream.read STATIC_HEADER_LENGTH (s.withRest (m ++ u :: v :: b8 :: b9 :: rest)) =
        (.ok [m0, m1, m2, m3, m4, m5, u, v, b8, b9], s.withRest rest) := by
  match m, hm with
  | [m0, m1, m2, m3, m4, m5], _ =>
    refine ⟨m0, m1, m2, m3, m4, m5, rfl, fun s hs => ?_⟩
    exact IStream.read_append hs [m0, m1, m2, m3, m4, m5, u, v, b8, b9] rest STATIC_HEADER_LENGTH rfl

theorem file_parts (cfg : Cfg) {bytes dict data : Bytes} (h : FileParts bytes dict data) {s : IStream} (hs : s.good = true) :
    ∃ s1 : IStream, s1.Clean ∧ s1.rest = data ∧
    ((cfg.ndebug = true ∨ bytes.take 6 = [0x93] ++ b!"NUMPY") → readNpyHeader cfg (s.withRest bytes) = (parseHeader cfg dict, s1)) ∧
    (¬(cfg.ndebug = true ∨ bytes.take 6 = [0x93] ++ b!"NUMPY") → (readNpyHeader cfg (s.withRest bytes)).1 = .error .abort) := by
  have magic : ∀ {m r : Bytes}, m.length = 6 → (m ++ r).take 6 = m := fun h => by rw [List.take_left' h]
  have good : ∀ {m0 m1 m2 m3 m4 m5 : Byte}, (cfg.ndebug = true ∨ [m0, m1, m2, m3, m4, m5] = [0x93] ++ b!"NUMPY") →
      ¬(cfg.ndebug = false ∧ [m0, m1, m2, m3, m4, m5] ≠ MAGIC) := by
    rintro _ _ _ _ _ _ h ⟨h1, h2⟩
    rcases h with h | h
    · rw [h] at h1; simp at h1
    · exact h2 h
  have bad : ∀ {m0 m1 m2 m3 m4 m5 : Byte}, ¬(cfg.ndebug = true ∨ [m0, m1, m2, m3, m4, m5] = [0x93] ++ b!"NUMPY") →
      (cfg.ndebug = false ∧ [m0, m1, m2, m3, m4, m5] ≠ MAGIC) := by
    intro _ _ _ _ _ _ h
    rw [not_or] at h
    exact ⟨by simpa using h.1, h.2⟩
  cases h with
  | @v1 m b8 b9 rest n hm hn =>
    obtain ⟨m0, m1, m2, m3, m4, m5, rfl, hr⟩ := first_ten (rest := rest) hm 1 0 b8 b9
    have hb8 := b8.toNat_lt
    have hb9 := b9.toNat_lt
    refine ⟨(s.withRest rest).adv n, IStream.Clean.adv (s := s.withRest rest) (.inl hs) n, adv_rest n, fun h => ?_, fun h => ?_⟩
    · rw [magic hm] at h
      unfold readNpyHeader
      rw [SM.bind_ok (hr s hs)]
      simp only []
      rw [if_neg (good h), if_pos (by simp), ← hn, SM.bind_ok (readDictionary_any hs rest (by unfold VECTOR_CHAR_MAX; omega))]
      rfl
    · rw [magic hm] at h
      unfold readNpyHeader
      rw [SM.bind_ok (hr s hs)]
      simp only []
      rw [if_pos (bad h)]
      rfl
  | @v2 m b8 b9 b10 b11 rest n hm hb hn =>
    obtain ⟨m0, m1, m2, m3, m4, m5, rfl, hr⟩ := first_ten (rest := b10 :: b11 :: rest) hm 2 0 b8 b9
    have hb8 := b8.toNat_lt
    have hb9 := b9.toNat_lt
    have hb10 := b10.toNat_lt
    refine ⟨(s.withRest rest).adv n, IStream.Clean.adv (s := s.withRest rest) (.inl hs) n, adv_rest n, fun h => ?_, fun h => ?_⟩
    · rw [magic hm] at h
      unfold readNpyHeader
      rw [SM.bind_ok (hr s hs)]
      simp only []
      rw [if_neg (good h), if_neg (by decide), if_pos (by simp)]
      have h2 : IStream.read 2 (s.withRest (b10 :: b11 :: rest)) = (.ok [b10, b11], s.withRest rest) := IStream.read_append hs [b10, b11] rest 2 rfl
      rw [SM.bind_ok h2]
      simp only []
      have hd : dictLengthV2 b8 b9 b10 b11 = n := by
        unfold dictLengthV2
        simp only []
        rw [if_pos (by omega), hn]
        omega
      rw [hd, SM.bind_ok (readDictionary_any hs rest (by unfold VECTOR_CHAR_MAX; omega))]
      rfl
    · rw [magic hm] at h
      unfold readNpyHeader
      rw [SM.bind_ok (hr s hs)]
      simp only []
      rw [if_pos (bad h)]
      rfl
  | @other m u v b8 b9 rest hm huv =>
    obtain ⟨m0, m1, m2, m3, m4, m5, rfl, hr⟩ := first_ten (rest := data) hm u v b8 b9
    refine ⟨s.withRest data, .inl hs, rfl, fun h => ?_, fun h => ?_⟩
    · rw [magic hm] at h
      unfold readNpyHeader
      rw [SM.bind_ok (hr s hs)]
      simp only []
      rw [if_neg (good h), if_neg (fun ⟨a, b⟩ => huv ⟨.inl a, b⟩), if_neg (fun ⟨a, b⟩ => huv ⟨.inr a, b⟩),
        SM.bind_ok (show readDictionary 0 (s.withRest data) = (.ok [], s.withRest data) from
          readDictionary_ok hs [] data 0 rfl (by decide))]
      rfl
    · rw [magic hm] at h
      unfold readNpyHeader
      rw [SM.bind_ok (hr s hs)]
      simp only []
      rw [if_pos (bad h)]
      rfl

/-- A header that is cut. -/
theorem file_cut (cfg : Cfg) {bytes : Bytes} (h : HeaderCut bytes) {s : IStream} (hs : s.good = true) :
    ∃ e, (readNpyHeader cfg (s.withRest bytes)).1 = .error e ∧ (cfg.ndebug = true → e = .ub) := by
  rcases h with h | ⟨m, b8, b9, rest, rfl, hm, hr⟩
  · unfold readNpyHeader
    rw [SM.bind_ok (IStream.read_short hs bytes STATIC_HEADER_LENGTH h)]
    split
    · simp at h
    · split
      · rename_i hc
        exact ⟨.abort, rfl, fun h => by rw [h] at hc; simp at hc⟩
      · exact ⟨.ub, rfl, fun _ => rfl⟩
  · obtain ⟨m0, m1, m2, m3, m4, m5, rfl, hr1⟩ := first_ten (rest := rest) hm 2 0 b8 b9
    unfold readNpyHeader
    rw [SM.bind_ok (hr1 s hs)]
    simp only []
    by_cases hmag : cfg.ndebug = false ∧ [m0, m1, m2, m3, m4, m5] ≠ MAGIC
    · rw [if_pos hmag]
      exact ⟨.abort, rfl, fun h => by rw [h] at hmag; simp at hmag⟩
    · rw [if_neg hmag, if_neg (by decide), if_pos (by simp)]
      refine ⟨.ub, ?_, fun _ => rfl⟩
      rw [SM.bind_ok (IStream.read_short hs rest 2 hr)]
      split
      · simp at hr
      · rfl

/-- A dictionary length of `2^31` or more. -/
theorem file_big (cfg : Cfg) {m rest : Bytes} {b8 b9 b10 b11 : Byte} (hm : m.length = 6) (hb : 128 ≤ b11.toNat) {s : IStream} (hs : s.good = true) :
    ∃ e, (readNpyHeader cfg (s.withRest (m ++ 2 :: 0 :: b8 :: b9 :: b10 :: b11 :: rest))).1 = .error e ∧
      (cfg.ndebug = true → ∃ x, e = .throw x) := by
  obtain ⟨m0, m1, m2, m3, m4, m5, rfl, hr1⟩ := first_ten (rest := b10 :: b11 :: rest) hm 2 0 b8 b9
  unfold readNpyHeader
  rw [SM.bind_ok (hr1 s hs)]
  simp only []
  by_cases hmag : cfg.ndebug = false ∧ [m0, m1, m2, m3, m4, m5] ≠ MAGIC
  · rw [if_pos hmag]
    exact ⟨.abort, rfl, fun h => by rw [h] at hmag; simp at hmag⟩
  · rw [if_neg hmag, if_neg (by decide), if_pos (by simp), SM.bind_ok (show IStream.read 2 (s.withRest (b10 :: b11 :: rest)) = (.ok [b10, b11], s.withRest rest) from
      IStream.read_append hs [b10, b11] rest 2 rfl)]
    simp only []
    refine ⟨.throw (.lengthError .std), ?_, fun _ => ⟨_, rfl⟩⟩
    have hd : dictLengthV2 b8 b9 b10 b11 > VECTOR_CHAR_MAX := by
      unfold dictLengthV2 VECTOR_CHAR_MAX
      simp only []
      rw [if_neg (by omega)]
      omega
    have : readDictionary (dictLengthV2 b8 b9 b10 b11) (s.withRest rest) = (.error (.throw (.lengthError .std)), s.withRest rest) := by
      unfold readDictionary
      rw [if_pos hd]
      rfl
    rw [SM.bind_error this]

/-- Every file is one of these. -/
theorem file_cases (bytes : Bytes) : HeaderCut bytes ∨ (∃ dict data, FileParts bytes dict data) ∨
    ∃ m b8 b9 b10 b11 rest, bytes = m ++ 2 :: 0 :: b8 :: b9 :: b10 :: b11 :: rest ∧ m.length = 6 ∧ 128 ≤ b11.toNat := by
  by_cases hl : bytes.length < 10
  · exact .inl (.inl hl)
  · have hl' : 10 ≤ bytes.length := Nat.le_of_not_lt hl
    obtain ⟨m0, m1, m2, m3, m4, m5, u, v, b8, b9, rest, rfl⟩ : ∃ m0 m1 m2 m3 m4 m5 u v b8 b9 rest,
        bytes = m0 :: m1 :: m2 :: m3 :: m4 :: m5 :: u :: v :: b8 :: b9 :: rest := by
      clear hl
      iterate 10
        rcases bytes with _ | ⟨b, bytes⟩
        · simp at hl'
      exact ⟨_, _, _, _, _, _, _, _, _, _, _, rfl⟩
    · clear hl hl'
      by_cases h1 : u = 1 ∧ v = 0
      · obtain ⟨rfl, rfl⟩ := h1
        exact .inr (.inl ⟨_, _, FileParts.v1 (m := [m0, m1, m2, m3, m4, m5]) rfl rfl⟩)
      · by_cases h2 : u = 2 ∧ v = 0
        · obtain ⟨rfl, rfl⟩ := h2
          match rest with
          | [] => exact .inl (.inr ⟨[m0, m1, m2, m3, m4, m5], b8, b9, [], rfl, rfl, by simp⟩)
          | [a] => exact .inl (.inr ⟨[m0, m1, m2, m3, m4, m5], b8, b9, [a], rfl, rfl, by simp⟩)
          | b10 :: b11 :: rest =>
            rcases Nat.lt_or_ge b11.toNat 128 with hb | hb
            · exact .inr (.inl ⟨_, _, FileParts.v2 (m := [m0, m1, m2, m3, m4, m5]) rfl hb rfl⟩)
            · exact .inr (.inr ⟨[m0, m1, m2, m3, m4, m5], b8, b9, b10, b11, rest, rfl, rfl, hb⟩)
        · refine .inr (.inl ⟨_, _, FileParts.other (m := [m0, m1, m2, m3, m4, m5]) (u := u) (v := v) (b8 := b8) (b9 := b9) (rest := rest) rfl ?_⟩)
          rintro ⟨h | h, hv⟩
          · exact h1 ⟨h, hv⟩
          · exact h2 ⟨h, hv⟩

end Npy
