import Verif.Proofs.AcceptFile
import Verif.Props.Data
/-!
# C72: what `peek` and `load` do with any bytes whatsoever
-/

namespace Npy
open Spec (DictRead DescrsFine Describes EmptyDescr FileParts HeaderCut HeaderOf filled filledWide TensorOk IsElem)

/-- **C72** The header texts that are accepted, in every build, and the header each of them means. -/
theorem C72_parse (cfg : Cfg) (text : Bytes) (info : HeaderInfo) :
    parseHeader cfg text = .ok info ↔ ∃ fs, DictRead (!cfg.ndebug) fs text ∧ DescrsFine fs ∧ Describes fs info := by
  rw [parse_accept]
  simp only [applyFields_iff]

/-- **C72** In a release build parsing a header text is undefined exactly for an empty (or missing) value of `descr`. -/
theorem C72_parse_undefined (cfg : Cfg) (hn : cfg.ndebug = true) (text : Bytes) :
    parseHeader cfg text = .error .ub ↔ EmptyDescr text := parse_ub hn text

/-- **C72** For all other header texts a release build throws. -/
theorem C72_parse_throws (cfg : Cfg) (hn : cfg.ndebug = true) (text : Bytes)
    (h1 : ¬EmptyDescr text) (h2 : ¬∃ fs, DictRead false fs text ∧ DescrsFine fs) :
    ∃ x, parseHeader cfg text = .error (.throw x) := by
  match hp : parseHeader cfg text with
  | .ok info =>
    obtain ⟨fs, h3, h4, _⟩ := (C72_parse cfg text info).1 hp
    rw [hn] at h3
    exact absurd ⟨fs, h3, h4⟩ h2
  | .error e =>
    rcases parse_error hn text hp with rfl | ⟨x, rfl⟩
    · exact absurd ((parse_ub hn text).1 hp) h1
    · exact ⟨x, rfl⟩

/-- A text nobody would call a dictionary: wrong brackets, wrong quotes, two orders, a minus sign, no `descr`. -/
def exOdd : Bytes := b!"<\"shape'=[-1,2),'fortran_order'-False,'fortran_order': Trap,}"

/-- A release build accepts it. -/
example : DictRead false [.shape [2 ^ 64 - 1, 2], .fortranOrder false, .fortranOrder true] exOdd := by
  have num : ∀ (ds : Bytes) n, ds ≠ [] → (∀ b ∈ ds, 48 ≤ b.toNat ∧ b.toNat ≤ 57) →
      Nat.ofDigits 10 (ds.reverse.map fun b => b.toNat - 48) = n → Spec.IsNumeral ds n := fun _ _ a b c => ⟨a, b, c⟩
  have w0 : Spec.White [] := by simp [Spec.White]
  have w1 : Spec.White [32] := by simp [Spec.White]
  have sh : Spec.ShapeRead [2 ^ 64 - 1, 2] b!"-1,2" :=
    .comma (ws := []) (sg := b!"-") (ds := b!"1") (n := 1) w0 (.inr (.inr rfl)) (num _ _ (by simp) (by simp) rfl) (by decide)
      (.next (ws := []) (sg := []) (ds := b!"2") (r := []) (n := 2) w0 (.inl rfl) (num _ _ (by simp) (by simp) rfl) (by decide)
        (by simp [Spec.NotDigitFirst]) (by simp) (.stop (ws := []) w0 .empty))
  refine ⟨60, _, [], rfl, by simp [Spec.Mark], ?_⟩
  refine Spec.ItemsRead.cons (w1 := []) (w2 := []) (w3 := []) (w4 := []) (q := 34) (c := 61) (d := 44) (v := b!"[-1,2)") w0 w0 w0 w0
    (by simp [Spec.Mark]) (by simp [Spec.WhiteChar]) (by simp) (by simp [Spec.Mark]) (by simp [Spec.WhiteChar])
    (.shape (q := 91) (q' := 41) (text := b!"-1,2") (by simp [Spec.Mark]) (by simp [Spec.Mark]) ⟨by simp, by simp, .inl rfl⟩ sh)
    ⟨_, _, rfl, by simp [Spec.WhiteChar]⟩ (by simp [Spec.Mark])
    (rest := b!"'fortran_order'-False,'fortran_order': Trap,}") ⟨_, _, rfl, by simp [Spec.WhiteChar]⟩ ?_
  refine Spec.ItemsRead.cons (w1 := []) (w2 := []) (w3 := []) (w4 := []) (q := 39) (c := 45) (d := 44) (v := b!"False") w0 w0 w0 w0
    (by simp [Spec.Mark]) (by simp [Spec.WhiteChar]) (by simp) (by simp [Spec.Mark]) (by simp [Spec.WhiteChar])
    (.isFalse (by simp)) ⟨_, _, rfl, by simp [Spec.WhiteChar]⟩ (by simp [Spec.Mark])
    (rest := b!"'fortran_order': Trap,}") ⟨_, _, rfl, by simp [Spec.WhiteChar]⟩ ?_
  exact Spec.ItemsRead.cons (w1 := []) (w2 := []) (w3 := [32]) (w4 := []) (q := 39) (c := 58) (d := 44) (v := b!"Trap") w0 w0 w1 w0
    (by simp [Spec.Mark]) (by simp [Spec.WhiteChar]) (by simp) (by simp [Spec.Mark]) (by simp [Spec.WhiteChar])
    (.isTrue (by simp)) ⟨_, _, rfl, by simp [Spec.WhiteChar]⟩ (by simp [Spec.Mark])
    (rest := b!"}") ⟨_, _, rfl, by simp [Spec.WhiteChar]⟩ .nil

/-- It means a shape and an order. -/
example : DescrsFine [.shape [2 ^ 64 - 1, 2], .fortranOrder false, .fortranOrder true] ∧
    Describes [.shape [2 ^ 64 - 1, 2], .fortranOrder false, .fortranOrder true] ⟨none, none, some true, [2 ^ 64 - 1, 2], none⟩ :=
  ⟨by simp [DescrsFine], ⟨rfl, rfl, fun _ => ⟨rfl, rfl, rfl⟩, by simp [Spec.lastDescr]⟩⟩

example : parseHeader ⟨false, true, false⟩ exOdd = .ok ⟨none, none, some true, [2 ^ 64 - 1, 2], none⟩ := by decide +kernel

/-- A build with `assert` stops. -/
example : parseHeader ⟨false, false, false⟩ exOdd = .error .abort := by decide +kernel

/-- A text for which a release build throws. -/
example : ¬(∃ fs, DictRead false fs b!"{'shape'" ∧ DescrsFine fs) ∧ ¬EmptyDescr b!"{'shape'" := by
  refine ⟨fun ⟨fs, h1, h2⟩ => ?_, fun h => ?_⟩
  · obtain ⟨h', ha⟩ := applyFields_fine h2 HeaderInfo.uninit
    have := (C72_parse ⟨false, true, false⟩ _ h').2 ⟨fs, h1, h2, describes_of_applyFields ha⟩
    rw [show parseHeader ⟨false, true, false⟩ b!"{'shape'" = .error (.throw (.runtimeError .unsupportedKey)) by decide +kernel] at this
    simp at this
  · exact absurd ((parse_ub (cfg := ⟨false, true, false⟩) rfl _).2 h) (by decide +kernel)

/-- An empty `descr`. -/
example : EmptyDescr b!"{'descr': ''" := ⟨123, _, [], [], 39, b!"': ''", rfl, .nil, by simp [DescrsFine], by simp [Spec.White], by
  simp [Spec.WhiteChar], by simp, Spec.NoDescr.empty (w := []) (c := 58) (w' := [32]) (q := 39) (r := []) (by simp [Spec.White]) (by simp [Spec.WhiteChar])
    (by simp [Spec.White]) (by simp [Spec.WhiteChar])⟩

/-! ### Whole files -/

theorem fileParts_unique {bytes dict data dict' data' : Bytes} (h : FileParts bytes dict data) (h' : FileParts bytes dict' data') :
    dict = dict' ∧ data = data' := by
  cases h with
  | @v1 m b8 b9 rest n hm hn =>
    generalize hb : m ++ 1 :: 0 :: b8 :: b9 :: rest = bs at h'
    cases h' with
    | @v1 m' b8' b9' rest' n' hm' hn' =>
      obtain ⟨rfl, h2⟩ := List.append_inj hb (by rw [hm, hm'])
      simp only [List.cons.injEq, true_and] at h2
      obtain ⟨rfl, rfl, rfl⟩ := h2
      rw [hn, hn']
      exact ⟨rfl, rfl⟩
    | v2 hm' hb' hn' =>
      have := (List.append_inj hb (by rw [hm, hm'])).2
      simp at this
    | other hm' huv =>
      have := (List.append_inj hb (by rw [hm, hm'])).2
      simp only [List.cons.injEq] at this
      exact absurd ⟨.inl this.1.symm, this.2.1.symm⟩ huv
  | @v2 m b8 b9 b10 b11 rest n hm hb11 hn =>
    generalize hb : m ++ 2 :: 0 :: b8 :: b9 :: b10 :: b11 :: rest = bs at h'
    cases h' with
    | v1 hm' hn' =>
      have := (List.append_inj hb (by rw [hm, hm'])).2
      simp at this
    | @v2 m' b8' b9' b10' b11' rest' n' hm' hb' hn' =>
      obtain ⟨rfl, h2⟩ := List.append_inj hb (by rw [hm, hm'])
      simp only [List.cons.injEq, true_and] at h2
      obtain ⟨rfl, rfl, rfl, rfl, rfl⟩ := h2
      rw [hn, hn']
      exact ⟨rfl, rfl⟩
    | other hm' huv =>
      have := (List.append_inj hb (by rw [hm, hm'])).2
      simp only [List.cons.injEq] at this
      exact absurd ⟨.inr this.1.symm, this.2.1.symm⟩ huv
  | @other m u v b8 b9 rest hm huv =>
    generalize hb : m ++ u :: v :: b8 :: b9 :: data = bs at h'
    cases h' with
    | v1 hm' hn' =>
      have := (List.append_inj hb (by rw [hm, hm'])).2
      simp only [List.cons.injEq] at this
      exact absurd ⟨.inl this.1, this.2.1⟩ huv
    | v2 hm' hb' hn' =>
      have := (List.append_inj hb (by rw [hm, hm'])).2
      simp only [List.cons.injEq] at this
      exact absurd ⟨.inr this.1, this.2.1⟩ huv
    | other hm' huv' =>
      have := (List.append_inj hb (by rw [hm, hm'])).2
      simp only [List.cons.injEq] at this
      exact ⟨rfl, this.2.2.2.2⟩

theorem ofBytes_withRest (bytes : Bytes) : (IStream.ofBytes bytes).withRest bytes = IStream.ofBytes bytes := rfl

/-- The header of a stream, when it is accepted, and what is left in the stream. -/
theorem header_run {cfg : Cfg} {bytes : Bytes} {info : HeaderInfo} {data : Bytes} (h : HeaderOf cfg bytes info data) {s : IStream}
    (hs : s.good = true) :
    ∃ s', s'.Clean ∧ s'.rest = data ∧ readNpyHeader cfg (s.withRest bytes) = (.ok info, s') := by
  obtain ⟨hm, dict, fs, h1, h2, h3, h4⟩ := h
  obtain ⟨s', h5, h6, h7, _⟩ := file_parts cfg h1 hs
  refine ⟨s', h5, h6, ?_⟩
  rw [h7 hm, (C72_parse cfg dict info).2 ⟨fs, h2, h3, h4⟩]

theorem header_inv {cfg : Cfg} {bytes : Bytes} {info : HeaderInfo} {s s' : IStream} (hs : s.good = true)
    (h : readNpyHeader cfg (s.withRest bytes) = (.ok info, s')) : ∃ data, HeaderOf cfg bytes info data := by
  rcases file_cases bytes with hc | ⟨dict, data, hp⟩ | ⟨m, b8, b9, b10, b11, rest, rfl, hm, hb⟩
  · obtain ⟨e, he, _⟩ := file_cut cfg hc hs
    rw [h] at he
    simp at he
  · obtain ⟨s'', h5, h6, h7, h8⟩ := file_parts cfg hp hs
    by_cases hm : cfg.ndebug = true ∨ bytes.take 6 = [0x93] ++ b!"NUMPY"
    · rw [h7 hm] at h
      simp only [Prod.mk.injEq] at h
      obtain ⟨fs, a, b, c⟩ := (C72_parse cfg dict info).1 h.1
      exact ⟨data, hm, dict, fs, hp, a, b, c⟩
    · have := h8 hm
      rw [h] at this
      simp at this
  · obtain ⟨e, he, _⟩ := file_big cfg hm hb hs
    rw [h] at he
    simp at he

/-- **C72** `peek` succeeds exactly on the files whose header is accepted, and returns what the header means. -/
theorem C72_peek (cfg : Cfg) (bytes : Bytes) (info : HeaderInfo) :
    peekString cfg bytes = .ok info ↔ ∃ data, HeaderOf cfg bytes info data := by
  constructor
  · intro h
    exact header_inv (s := IStream.ofBytes bytes) (s' := (peek cfg (IStream.ofBytes bytes)).2) rfl (Prod.ext h rfl)
  · rintro ⟨data, h⟩
    obtain ⟨s', _, _, hr⟩ := header_run h (s := IStream.ofBytes bytes) rfl
    show (readNpyHeader cfg ((IStream.ofBytes bytes).withRest bytes)).1 = _
    rw [hr]

/-- **C72** In a release build `peek` is undefined exactly when the file ends before the dictionary begins, or the dictionary has an empty
(or missing) value of `descr`. -/
theorem C72_peek_undefined (cfg : Cfg) (hn : cfg.ndebug = true) (bytes : Bytes) :
    peekString cfg bytes = .error .ub ↔ HeaderCut bytes ∨ ∃ dict data, FileParts bytes dict data ∧ EmptyDescr dict := by
  have hs : (IStream.ofBytes bytes).good = true := rfl
  have parts : ∀ {dict data}, FileParts bytes dict data → peekString cfg bytes = parseHeader cfg dict := by
    intro dict data hp
    obtain ⟨s', _, _, h7, _⟩ := file_parts cfg hp hs
    have := congrArg Prod.fst (h7 (.inl hn))
    exact this
  constructor
  · intro h
    rcases file_cases bytes with hc | ⟨dict, data, hp⟩ | ⟨m, b8, b9, b10, b11, rest, rfl, hm, hb⟩
    · exact .inl hc
    · rw [parts hp] at h
      exact .inr ⟨dict, data, hp, (parse_ub hn dict).1 h⟩
    · obtain ⟨e, he, hx⟩ := file_big cfg hm hb hs (rest := rest) (b8 := b8) (b9 := b9) (b10 := b10)
      obtain ⟨x, rfl⟩ := hx hn
      have h' : (readNpyHeader cfg ((IStream.ofBytes (m ++ 2 :: 0 :: b8 :: b9 :: b10 :: b11 :: rest)).withRest
        (m ++ 2 :: 0 :: b8 :: b9 :: b10 :: b11 :: rest))).1 = .error .ub := h
      rw [h'] at he
      simp at he
  · rintro (hc | ⟨dict, data, hp, hd⟩)
    · obtain ⟨e, he, hx⟩ := file_cut cfg hc hs
      rw [hx hn] at he
      exact he
    · rw [parts hp]
      exact (parse_ub hn dict).2 hd

/-- **C72** On all other files a release build of `peek` throws. -/
theorem C72_peek_throws (cfg : Cfg) (hn : cfg.ndebug = true) (bytes : Bytes)
    (h1 : ¬(HeaderCut bytes ∨ ∃ dict data, FileParts bytes dict data ∧ EmptyDescr dict))
    (h2 : ¬∃ info data, HeaderOf cfg bytes info data) : ∃ x, peekString cfg bytes = .error (.throw x) := by
  have hs : (IStream.ofBytes bytes).good = true := rfl
  rw [not_or] at h1
  rcases file_cases bytes with hc | ⟨dict, data, hp⟩ | ⟨m, b8, b9, b10, b11, rest, rfl, hm, hb⟩
  · exact absurd hc h1.1
  · obtain ⟨s', _, _, h7, _⟩ := file_parts cfg hp hs
    have h8 := congrArg Prod.fst (h7 (.inl hn))
    have h9 : peekString cfg bytes = parseHeader cfg dict := h8
    rw [h9]
    refine C72_parse_throws cfg hn dict (fun h => h1.2 ⟨dict, data, hp, h⟩) ?_
    rintro ⟨fs, hd, hf⟩
    obtain ⟨h', ha⟩ := applyFields_fine hf HeaderInfo.uninit
    exact h2 ⟨h', data, .inl hn, dict, fs, hp, by rw [hn]; exact hd, hf, describes_of_applyFields ha⟩
  · obtain ⟨e, he, hx⟩ := file_big cfg hm hb hs (rest := rest) (b8 := b8) (b9 := b9) (b10 := b10)
    obtain ⟨x, rfl⟩ := hx hn
    exact ⟨x, he⟩

/-! ### `load` -/

theorem HeaderOf.order_of_dtype {cfg : Cfg} {bytes : Bytes} {info : HeaderInfo} {data : Bytes} (h : HeaderOf cfg bytes info data) {t : DType}
    (ht : info.dtype = some t) : ∃ e m, info.endianness = some e ∧ info.maxElementLength = some m := by
  obtain ⟨_, dict, fs, _, _, _, hd⟩ := h
  match hl : Spec.lastDescr fs with
  | none => rw [(hd.noDescr hl).1] at ht; simp at ht
  | some code =>
    obtain ⟨t', e, m, _, _, h2, h3⟩ := hd.descr code hl
    exact ⟨e, m, h2, h3⟩

theorem HeaderOf.unique {cfg : Cfg} {bytes : Bytes} {info info' : HeaderInfo} {data data' : Bytes} (h : HeaderOf cfg bytes info data)
    (h' : HeaderOf cfg bytes info' data') : info = info' ∧ data = data' := by
  have h1 := (C72_peek cfg bytes info).2 ⟨_, h⟩
  rw [(C72_peek cfg bytes info').2 ⟨_, h'⟩] at h1
  simp only [Except.ok.injEq] at h1
  obtain ⟨_, dict, fs, hp, _⟩ := h
  obtain ⟨_, dict', fs', hp', _⟩ := h'
  exact ⟨h1.symm, (fileParts_unique hp hp').2⟩

theorem libOps_sizeof {α : Type} {ops : ElemOps α} (ho : LibOps ops) : 0 < ops.sizeof := by
  cases ho with
  | fixed t ht => exact size_pos t ht
  | wide => decide

/-- Reading the elements always succeeds when there is a `descr`. -/
theorem libOps_read {α : Type} {ops : ElemOps α} (ho : LibOps ops) (cfg : Cfg) {info : HeaderInfo} {e : Endian} {m : Nat}
    (he : info.endianness = some e) (hm : info.maxElementLength = some m) (n : Nat) {s : IStream} (hs : s.Clean) :
    ∃ vals s', ops.read cfg info n s = (.ok vals, s') := by
  cases ho with
  | fixed t ht => exact ⟨_, _, readFixed_gen ht n (.inr (by rw [he]; simp)) hs⟩
  | wide => exact ⟨_, _, readWide_gen n he hm hs⟩

/-- Everything `load` does once the header is read. -/
theorem load_run {α : Type} {cfg : Cfg} {ops : ElemOps α} (ho : LibOps ops) {bytes : Bytes} {info : HeaderInfo} {data : Bytes}
    (h : HeaderOf cfg bytes info data) :
    (info.fortranOrder = none → loadFromString cfg ops bytes = .error .ub) ∧
    (info.fortranOrder ≠ none → ¬info.shape.prod % 2 ^ 64 * ops.sizeof < 2 ^ 63 →
      loadFromString cfg ops bytes = .error (.throw (.lengthError .std))) ∧
    (info.fortranOrder ≠ none → info.shape.prod % 2 ^ 64 * ops.sizeof < 2 ^ 63 → info.dtype = none →
      loadFromString cfg ops bytes = .error .ub) ∧
    (info.fortranOrder ≠ none → info.shape.prod % 2 ^ 64 * ops.sizeof < 2 ^ 63 → ∀ t, info.dtype = some t → t ≠ ops.dtype →
      loadFromString cfg ops bytes = .error (.throw (.runtimeError .dtypeMismatch))) ∧
    (info.fortranOrder ≠ none → info.shape.prod % 2 ^ 64 * ops.sizeof < 2 ^ 63 → info.dtype = some ops.dtype →
      ∃ x, loadFromString cfg ops bytes = .ok x) := by
  obtain ⟨s', hc, hr, hrun⟩ := header_run h (s := IStream.ofBytes bytes) rfl
  have hsz : Tensor.getSize info.shape = info.shape.prod % 2 ^ 64 := Tensor.getSize_eq _
  have hload : loadFromString cfg ops bytes = (Tensor.load cfg ops info s').1 := by
    show (load cfg ops ((IStream.ofBytes bytes).withRest bytes)).1 = _
    unfold load
    rw [SM.bind_ok hrun]
  rw [hload]
  unfold Tensor.load
  match hf : info.fortranOrder with
  | none => exact ⟨fun _ => rfl, by simp, by simp, by simp, by simp⟩
  | some f =>
    refine ⟨by simp, fun _ hb => ?_, fun _ hb hd => ?_, fun _ hb t hd ht => ?_, fun _ hb hd => ?_⟩
    · have : Tensor.new ops info.shape f = .error (.throw (.lengthError .std)) := by
        unfold Tensor.new
        rw [if_pos]
        rw [gt_iff_lt, ← Nat.not_le, Tensor.le_maxSize_iff ops (libOps_sizeof ho), hsz]
        exact hb
      simp only []
      rw [this]
      rfl
    all_goals
      have hnew : ∃ r, Tensor.new ops info.shape f = .ok r ∧ r.dtype = ops.dtype := by
        unfold Tensor.new
        rw [if_neg (by rw [Nat.not_lt, Tensor.le_maxSize_iff ops (libOps_sizeof ho), hsz]; exact hb)]
        exact ⟨_, rfl, rfl⟩
      obtain ⟨r, hr1, hr2⟩ := hnew
      simp only []
      rw [hr1, SM.bind_ok (show (SM.lift (.ok r) : IM (Tensor α)) s' = (.ok r, s') from rfl), hd]
    · rfl
    · simp only []
      rw [if_pos (by rw [hr2]; exact ht)]
      rfl
    · simp only []
      rw [if_neg (by rw [hr2]; simp)]
      obtain ⟨e, m, he, hm⟩ := HeaderOf.order_of_dtype h hd
      obtain ⟨vals, s2, hv⟩ := libOps_read ho cfg he hm r.values.length hc
      rw [SM.bind_ok hv]
      exact ⟨_, rfl⟩

/-- **C72** `load` succeeds exactly when the header is accepted and has an order, the element type is the one asked for, and the tensor
fits into the address space. Missing data is no reason to fail. (Memory is unlimited in the model.) -/
theorem C72_load {α : Type} (cfg : Cfg) (ops : ElemOps α) (ho : LibOps ops) (bytes : Bytes) :
    (∃ x, loadFromString cfg ops bytes = .ok x) ↔ ∃ info data, HeaderOf cfg bytes info data ∧ info.fortranOrder ≠ none ∧
      info.dtype = some ops.dtype ∧ info.shape.prod % 2 ^ 64 * ops.sizeof < 2 ^ 63 := by
  constructor
  · rintro ⟨x, hx⟩
    obtain ⟨info, s1, vals, h1, h2, h3, h4, _, h6, _⟩ := load_inv (s := IStream.ofBytes bytes)
      (s' := (load cfg ops (IStream.ofBytes bytes)).2) (Prod.ext hx rfl)
    obtain ⟨data, hd⟩ := header_inv (s := IStream.ofBytes bytes) rfl (show readNpyHeader cfg _ = _ from h1)
    refine ⟨info, data, hd, by rw [h2]; simp, h4, ?_⟩
    rw [Tensor.le_maxSize_iff _ (libOps_sizeof ho), Tensor.getSize_eq, ← h3] at h6
    exact h6
  · rintro ⟨info, data, h, h1, h2, h3⟩
    exact (load_run ho h).2.2.2.2 h1 h3 h2

theorem load_bad {α : Type} (cfg : Cfg) (ops : ElemOps α) {bytes : Bytes} {e : Err} (h : peekString cfg bytes = .error e) :
    loadFromString cfg ops bytes = .error e := by
  show (load cfg ops (IStream.ofBytes bytes)).1 = _
  unfold load
  rw [SM.bind_error (show readNpyHeader cfg (IStream.ofBytes bytes) = (.error e, _) from Prod.ext h rfl)]

/-- **C72** In a release build `load` is undefined exactly when `peek` is, or the header has no `fortran_order`, or it has no `descr`
and the tensor would fit into the address space. -/
theorem C72_load_undefined {α : Type} (cfg : Cfg) (hn : cfg.ndebug = true) (ops : ElemOps α) (ho : LibOps ops) (bytes : Bytes) :
    loadFromString cfg ops bytes = .error .ub ↔
      (HeaderCut bytes ∨ ∃ dict data, FileParts bytes dict data ∧ EmptyDescr dict) ∨
      ∃ info data, HeaderOf cfg bytes info data ∧ (info.fortranOrder = none ∨
        (info.dtype = none ∧ info.shape.prod % 2 ^ 64 * ops.sizeof < 2 ^ 63)) := by
  rw [← C72_peek_undefined cfg hn]
  constructor
  · intro h
    match hp : peekString cfg bytes with
    | .error e =>
      rw [load_bad cfg ops hp] at h
      simp only [Except.error.injEq] at h
      exact .inl (by rw [h])
    | .ok info =>
      right
      obtain ⟨data, hd⟩ := (C72_peek cfg bytes info).1 hp
      refine ⟨info, data, hd, ?_⟩
      obtain ⟨l1, l2, l3, l4, l5⟩ := load_run ho hd
      by_cases hf : info.fortranOrder = none
      · exact .inl hf
      · by_cases hb : info.shape.prod % 2 ^ 64 * ops.sizeof < 2 ^ 63
        · match ht : info.dtype with
          | none => exact .inr ⟨rfl, hb⟩
          | some t =>
            by_cases htt : t = ops.dtype
            · obtain ⟨x, hx⟩ := l5 hf hb (by rw [ht, htt])
              rw [hx] at h
              simp at h
            · rw [l4 hf hb t ht htt] at h
              simp at h
        · rw [l2 hf hb] at h
          simp at h
  · rintro (h | ⟨info, data, hd, h⟩)
    · exact load_bad cfg ops h
    · obtain ⟨l1, l2, l3, l4, l5⟩ := load_run ho hd
      by_cases hf : info.fortranOrder = none
      · exact l1 hf
      · rcases h with h | ⟨h, hb⟩
        · exact absurd h hf
        · exact l3 hf hb h

/-- **C72** In all other cases a release build of `load` throws. -/
theorem C72_load_throws {α : Type} (cfg : Cfg) (hn : cfg.ndebug = true) (ops : ElemOps α) (ho : LibOps ops) (bytes : Bytes)
    (h1 : loadFromString cfg ops bytes ≠ .error .ub) (h2 : ¬∃ x, loadFromString cfg ops bytes = .ok x) :
    ∃ x, loadFromString cfg ops bytes = .error (.throw x) := by
  match hp : peekString cfg bytes with
  | .error e =>
    have hl := load_bad cfg ops hp
    by_cases hu : peekString cfg bytes = .error .ub
    · rw [hp] at hu
      simp only [Except.error.injEq] at hu
      rw [hl, hu] at h1
      exact absurd rfl h1
    · obtain ⟨x, hx⟩ := C72_peek_throws cfg hn bytes (fun h => hu ((C72_peek_undefined cfg hn bytes).2 h)) (by
        rintro ⟨info, data, h⟩
        rw [(C72_peek cfg bytes info).2 ⟨data, h⟩] at hp
        simp at hp)
      rw [hp] at hx
      simp only [Except.error.injEq] at hx
      exact ⟨x, by rw [hl, hx]⟩
  | .ok info =>
    obtain ⟨data, hd⟩ := (C72_peek cfg bytes info).1 hp
    obtain ⟨l1, l2, l3, l4, l5⟩ := load_run ho hd
    by_cases hf : info.fortranOrder = none
    · exact absurd (l1 hf) h1
    · by_cases hb : info.shape.prod % 2 ^ 64 * ops.sizeof < 2 ^ 63
      · match ht : info.dtype with
        | none => exact absurd (l3 hf hb ht) h1
        | some t =>
          by_cases htt : t = ops.dtype
          · exact absurd (l5 hf hb (by rw [ht, htt])) h2
          · exact ⟨_, l4 hf hb t ht htt⟩
      · exact ⟨_, l2 hf hb⟩

/-! ### The values -/

theorem chunks_flatten (k n : Nat) (bs : Bytes) (h : bs.length = n * k) : (chunks k n bs).flatten = bs ∧ ∀ m ∈ chunks k n bs, m.length = k := by
  induction n generalizing bs with
  | zero =>
    simp only [Nat.zero_mul, List.length_eq_zero_iff] at h
    simp [chunks, h]
  | succ n ih =>
    rw [Nat.succ_mul] at h
    obtain ⟨h1, h2⟩ := ih (bs.drop k) (by rw [List.length_drop]; omega)
    refine ⟨by rw [chunks, List.flatten_cons, h1, List.take_append_drop], ?_⟩
    intro m hm
    rw [chunks, List.mem_cons] at hm
    rcases hm with rfl | hm
    · rw [List.length_take]; omega
    · exact h2 m hm

theorem flatMap_fixed (cfg : Cfg) (t : DType) (e : Endian) (ms : List Bytes) (h : ∀ m ∈ ms, m.length = t.size) :
    (ms.map fun m => memElem cfg t (if Swaps cfg t (some e) then m.reverse else m)).flatMap (fixedBytes cfg t e) = ms.flatten := by
  induction ms with
  | nil => rfl
  | cons m ms ih =>
    rw [List.map_cons, List.flatMap_cons, List.flatten_cons, ih fun m hm => h m (List.mem_cons_of_mem _ hm), fixedBytes_swaps]
    congr 1
    have hl := h m List.mem_cons_self
    split
    · rw [memBytes_memElem (by rw [List.length_reverse, hl]), List.reverse_reverse]
    · exact memBytes_memElem hl

/-- **C72** What a tensor of fixed-size elements holds after loading: shape and order of the header, and the elements whose bytes, in the
byte order of the header, are the data of the file. Missing data is filled up. (In the order that is not the host's, the two components
of a complex number are swapped.) -/
theorem C72_data (cfg : Cfg) (t : DType) (ht : t ≠ .unicode) (bytes : Bytes) (x : Tensor Elem)
    (h : loadFromString cfg (fixedOps t) bytes = .ok x) (info : HeaderInfo) (data : Bytes) (hh : HeaderOf cfg bytes info data) :
    x.shape = info.shape ∧ some x.fortranOrder = info.fortranOrder ∧ TensorOk t (Spec.itemSize t) x ∧ (∀ v ∈ x.values, IsElem t v) ∧
    ∃ e, info.endianness = some e ∧
      x.values.flatMap (fun v => Spec.elemBytes t (Spec.isBig cfg e) (if Spec.isBig cfg e = cfg.nativeBig then v else v.reverse)) =
        filled cfg t (Spec.isBig cfg e) (x.values.length * Spec.itemSize t) data := by
  have hl : load cfg (fixedOps t) (IStream.ofBytes bytes) = (.ok x, (load cfg (fixedOps t) (IStream.ofBytes bytes)).2) := Prod.ext h rfl
  obtain ⟨ok, hv⟩ := C29_loaded_wellformed cfg t ht _ _ x hl
  obtain ⟨info', s1, vals, h1, h2, h3, h4, h5, h6, h7, h8, h9⟩ := load_inv hl
  obtain ⟨s', hc, hr, hrun⟩ := header_run hh (s := IStream.ofBytes bytes) rfl
  rw [show peek cfg (IStream.ofBytes bytes) = (.ok info, s') from hrun] at h1
  simp only [Prod.mk.injEq, Except.ok.injEq] at h1
  obtain ⟨rfl, rfl⟩ := h1
  obtain ⟨e, m, he, hm⟩ := HeaderOf.order_of_dtype hh h4
  refine ⟨h3.symm, h2.symm, ok, hv, e, he, ?_⟩
  have hn : Tensor.getSize x.shape = x.values.length := by rw [ok.size, Tensor.getSize_eq]; rfl
  rw [hn] at h8
  have h10 := readFixed_gen (cfg := cfg) ht (info := info) x.values.length (.inr (by rw [he]; simp)) hc
  rw [show readFixed cfg t info x.values.length s' = _ from h8, he] at h10
  simp only [Prod.mk.injEq, Except.ok.injEq] at h10
  have h11 := h10.1
  rw [← h9] at h11
  have e1 : (x.values.flatMap fun v => Spec.elemBytes t (Spec.isBig cfg e) (if Spec.isBig cfg e = cfg.nativeBig then v else v.reverse)) =
      x.values.flatMap (fixedBytes cfg t e) := by
    simp only [List.flatMap_def]
    congr 1
    exact List.map_congr_left fun v hm => (fixedBytes_exact cfg t ht e ((validElem_iff t ht v).2 (hv v hm))).symm
  rw [e1]
  generalize x.values.length = n at *
  have h12 : x.values = (chunks t.size n (filled cfg t (Spec.isBig cfg e) (n * t.size) data)).map fun m =>
      memElem cfg t (if Swaps cfg t (some e) then m.reverse else m) := by
    have hp : ∀ b, s'.padded b (n * t.size) = data.take (n * t.size) ++ List.replicate (n * t.size - data.length) b := by
      intro b; rw [← hr]; rfl
    rw [h11]
    by_cases hsw : Swaps cfg t (some e)
    · rw [if_pos hsw]
      obtain ⟨o1, o2⟩ := (swaps_iff cfg t e).1 hsw
      have : ¬(Spec.itemSize t = 1 ∨ Spec.isBig cfg e = cfg.nativeBig) := by
        rintro (h | h)
        · cases t <;> simp_all [Spec.itemSize, Spec.parts, Spec.width, DType.oneByte]
        · rw [h] at o2; cases cfg.nativeBig <;> simp at o2
      simp only [if_pos hsw, filled, if_neg this, hp]
    · rw [if_neg hsw]
      have : Spec.itemSize t = 1 ∨ Spec.isBig cfg e = cfg.nativeBig := by
        by_cases ho : t.oneByte = false
        · right
          have h := mt (fun h => (swaps_iff cfg t e).2 ⟨ho, h⟩) hsw
          cases h1 : Spec.isBig cfg e <;> cases h2 : cfg.nativeBig <;> simp_all
        · left
          cases t <;> simp_all [Spec.itemSize, Spec.parts, Spec.width, DType.oneByte]
      simp only [if_neg hsw, filled, if_pos this, hp]
  have hlen : (filled cfg t (Spec.isBig cfg e) (n * t.size) data).length = n * t.size := by
    simp only [filled, List.length_append, List.length_take, List.length_replicate]; omega
  obtain ⟨c1, c2⟩ := chunks_flatten _ _ _ hlen
  rw [h12, flatMap_fixed cfg t e _ c2, c1, itemSize_eq t ht]

/-- **C72** The same for strings: every string is read from as many four-byte units as the `descr` says, in the byte order of the header;
zero units are left out, and where `wchar_t` has 16 bits the units are cut to them. Missing data reads as 0xFF. -/
theorem C72_data_unicode (cfg : Cfg) (bytes : Bytes) (x : Tensor WStr)
    (h : loadFromString cfg wideOps bytes = .ok x) (info : HeaderInfo) (data : Bytes) (hh : HeaderOf cfg bytes info data) :
    x.shape = info.shape ∧ some x.fortranOrder = info.fortranOrder ∧ TensorOk .unicode 32 x ∧
    ∃ e m, info.endianness = some e ∧ info.maxElementLength = some m ∧
      ∃ units : List (List Nat), (∀ us ∈ units, us.length = m ∧ ∀ u ∈ us, u < 2 ^ 32) ∧
        (units.flatMap fun us => us.flatMap (Spec.intBytes (Spec.isBig cfg e) 4)) = filledWide (x.values.length * (m * 4)) data ∧
        x.values = units.map fun us => (us.filter (· ≠ 0)).map fun u => if cfg.wchar16 then u % 2 ^ 16 else u := by
  have hl : load cfg wideOps (IStream.ofBytes bytes) = (.ok x, (load cfg wideOps (IStream.ofBytes bytes)).2) := Prod.ext h rfl
  obtain ⟨ok, hv⟩ := C29_loaded_wellformed_unicode cfg _ _ x hl
  obtain ⟨info', s1, vals, h1, h2, h3, h4, h5, h6, h7, h8, h9⟩ := load_inv hl
  obtain ⟨s', hc, hr, hrun⟩ := header_run hh (s := IStream.ofBytes bytes) rfl
  rw [show peek cfg (IStream.ofBytes bytes) = (.ok info, s') from hrun] at h1
  simp only [Prod.mk.injEq, Except.ok.injEq] at h1
  obtain ⟨rfl, rfl⟩ := h1
  obtain ⟨e, m, he, hm⟩ := HeaderOf.order_of_dtype hh h4
  refine ⟨h3.symm, h2.symm, ok, e, m, he, hm, ?_⟩
  have hn : Tensor.getSize x.shape = x.values.length := by rw [ok.size, Tensor.getSize_eq]; rfl
  rw [hn] at h8
  have h10 := readWide_gen (cfg := cfg) (info := info) x.values.length he hm hc
  rw [show readWide cfg info x.values.length s' = _ from h8] at h10
  simp only [Prod.mk.injEq, Except.ok.injEq] at h10
  have h11 := h10.1
  rw [← h9] at h11
  generalize x.values.length = n at *
  have hp : s'.padded 0xFF (n * (m * 4)) = filledWide (n * (m * 4)) data := by rw [← hr]; rfl
  rw [hp] at h11
  have hlen : (filledWide (n * (m * 4)) data).length = n * (m * 4) := by
    simp only [filledWide, List.length_append, List.length_take, List.length_replicate]; omega
  obtain ⟨c1, c2⟩ := chunks_flatten _ _ _ hlen
  have hu : ∀ k : Bytes, k.length = m * 4 → (unitsOf cfg e m k).flatMap (Spec.intBytes (Spec.isBig cfg e) 4) = k := by
    intro k hk
    obtain ⟨d1, d2⟩ := chunks_flatten 4 m k hk
    rw [unitsOf, List.flatMap_map]
    conv_rhs => rw [← d1]
    rw [List.flatMap_def]
    congr 1
    conv_rhs => rw [← List.map_id (chunks 4 m k)]
    apply List.map_congr_left
    intro q hq
    rw [← writeUnit_spec, writeUnit_eq]
    have hql : (unitMem cfg e q).length = 4 := by unfold unitMem; split <;> simp [d2 q hq]
    have := hostBytes_hostValue cfg (unitMem cfg e q)
    rw [hql] at this
    rw [this, unitMem_unitMem]
    rfl
  refine ⟨(chunks (m * 4) n (filledWide (n * (m * 4)) data)).map (unitsOf cfg e m), ?_, ?_, ?_⟩
  · intro us hus
    obtain ⟨k, hk, rfl⟩ := List.mem_map.1 hus
    refine ⟨by simp [unitsOf, chunks_length], ?_⟩
    intro u hu
    obtain ⟨q, hq, rfl⟩ := List.mem_map.1 hu
    have hql := (chunks_flatten 4 m k (c2 k hk)).2 q hq
    have := hostValue_lt cfg (unitMem cfg e q)
    have hl : (unitMem cfg e q).length = 4 := by unfold unitMem; split <;> simp [hql]
    rw [hl] at this
    exact this
  · rw [List.flatMap_map]
    conv_rhs => rw [← c1]
    rw [List.flatMap_def]
    congr 1
    conv_rhs => rw [← List.map_id (chunks (m * 4) n (filledWide (n * (m * 4)) data))]
    exact List.map_congr_left fun k hk => hu k (c2 k hk)
  · rw [h11, List.map_map]
    rfl

/-! ### Examples -/

/-- Version 1.0 with a wrong magic, big endian 16-bit numbers and one byte of data too few. -/
def exShort : Bytes := b!"xyzzy!" ++ [1, 0, 63, 0] ++ b!"{'descr': '>i2', 'fortran_order': False, 'shape': (2, ), }    \n" ++ [1, 2, 3]

/-- `peek` and `load` accept it in release builds. -/
example : ∃ data, HeaderOf ⟨false, true, false⟩ exShort ⟨some .int16, some .big, some false, [2], some 0⟩ data :=
  (C72_peek _ _ _).1 (by decide +kernel)

example : (loadFromString ⟨false, true, false⟩ (fixedOps .int16) exShort).map (·.values) = .ok [[258], [1023]] := by decide +kernel

/-- Debug builds stop at the magic. -/
example : ¬∃ info data, HeaderOf ⟨false, false, false⟩ exShort info data := by
  rintro ⟨info, data, h, _⟩
  revert h
  decide +kernel

/-- The bytes of its elements are the three bytes of data and one 0xFF. -/
example : filled ⟨false, true, false⟩ .int16 true 4 [1, 2, 3] = [1, 2, 3, 255] ∧ Spec.elemBytes .int16 true [258] = [1, 2] ∧
    Spec.elemBytes .int16 true [1023] = [3, 255] := by decide +kernel

/-- Files that end too early. -/
example : HeaderCut (exShort.take 9) ∧ HeaderCut (b!"xyzzy!" ++ [2, 0, 1, 1, 0]) :=
  ⟨.inl (by decide +kernel), .inr ⟨b!"xyzzy!", 1, 1, [0], rfl, rfl, by decide⟩⟩

/-- A file with an empty `descr`. -/
example : ∃ dict data, FileParts (b!"xyzzy!" ++ [1, 0, 12, 0] ++ b!"{'descr': ''") dict data ∧ EmptyDescr dict :=
  ((C72_peek_undefined ⟨false, true, false⟩ rfl _).1 (by decide +kernel)).resolve_left (by
    rintro (h | ⟨m, b8, b9, rest, h, hm, _⟩)
    · revert h; decide
    · match m, hm with
      | [m0, m1, m2, m3, m4, m5], _ => simp at h)

/-- A file without `fortran_order`, and one without `descr`. -/
example : loadFromString ⟨false, true, false⟩ (fixedOps .int8) (b!"xyzzy!" ++ [1, 0, 16, 0] ++ b!"{'descr':'|i1',}") = .error .ub ∧
    loadFromString ⟨false, true, false⟩ (fixedOps .int8) (b!"xyzzy!" ++ [1, 0, 23, 0] ++ b!"{'fortran_order':True,}") = .error .ub := by
  decide +kernel

/-- Files for which `peek` throws: another version (then the dictionary is empty), and a length of `2^31`. -/
example : peekString ⟨false, true, false⟩ (b!"xyzzy!" ++ [3, 0, 0, 0]) = .error (.throw (.runtimeError .unsupportedKey)) ∧
    peekString ⟨false, true, false⟩ (b!"xyzzy!" ++ [2, 0, 0, 0, 0, 128]) = .error (.throw (.lengthError .std)) := by
  decide +kernel

/-- A file for which only `load` throws. -/
example : loadFromString ⟨false, true, false⟩ (fixedOps .uint16) exShort = .error (.throw (.runtimeError .dtypeMismatch)) := by
  decide +kernel

/-- Strings of two units, the second string cut off: zero units are left out and missing bytes are 0xFF. -/
def exShortWide : Bytes := b!"xyzzy!" ++ [1, 0, 63, 0] ++ b!"{'descr': '<U2', 'fortran_order': False, 'shape': (2, ), }    \n" ++
  [0, 0, 0, 0, 97, 0, 0, 0, 98]

example : (loadFromString ⟨false, true, false⟩ wideOps exShortWide).map (·.values) = .ok [[97], [0xFFFFFF62, 0xFFFFFFFF]] := by
  decide +kernel

end Npy
