import Verif.Model.LocaleNpz
import Verif.Props.Locale
import Verif.Props.Fits
/-!
# C80: the program's locale, strings and archives
-/

namespace Npy
open Spec

/-! ### Strings -/

def savedWideL (loc : Locale) (cfg : Cfg) (x : Tensor WStr) (e : Endian) : Bytes :=
  headerBytesL loc (Spec.descrU (maxLength x.values) (Spec.isBig cfg e)) x.fortranOrder x.shape ++
    x.values.flatMap (wideBytes cfg e (maxLength x.values))

theorem saveL_wide {loc : Locale} {cfg : Cfg} (x : Tensor WStr) (e : Endian) {o : OStream} (ho : o.Healthy) :
    saveL loc cfg wideOps x e o = .ok (o.write (savedWideL loc cfg x e)) := by
  unfold saveL
  simp only [wideOps]
  rw [wideDtypeStr_eq, writeNpyHeaderL_ok ho, writeWide_ok (ho.write _), OStream.write_write ho]
  rfl

theorem saveToStringL_wide {loc : Locale} {cfg : Cfg} (x : Tensor WStr) (e : Endian) :
    saveToStringL loc cfg wideOps x e = .ok (savedWideL loc cfg x e) := by
  unfold saveToStringL
  rw [saveL_wide x e OStream.empty_healthy, OStream.write_healthy OStream.empty_healthy]
  rfl

theorem dropNul_id {cfg : Cfg} {x : Tensor WStr} (hw : ∀ v ∈ x.values, IsWide cfg v) (h0 : ∀ v ∈ x.values, 0 ∉ v) :
    x.values.map (dropNul cfg) = x.values := by
  conv_rhs => rw [← List.map_id x.values]
  apply List.map_congr_left
  intro v hv
  rw [dropNul_eq (hw v hv), List.filter_eq_self.2]
  · rfl
  · intro c hc
    simp only [ne_eq, decide_not, Bool.not_eq_eq_eq_not, Bool.not_true, decide_eq_false_iff_not]
    rintro rfl
    exact h0 v hv hc

theorem loadL_wide {l1 l2 : Locale} {cfg : Cfg} {x : Tensor WStr}
    (hx : Spec.TensorOk .unicode 32 x) (hw : ∀ v ∈ x.values, IsWide cfg v) (h0 : ∀ v ∈ x.values, 0 ∉ v) (e : Endian)
    (hm : maxLength x.values < 2 ^ 31)
    (hlen : (dictionaryTextL l1 (Spec.descrU (maxLength x.values) (Spec.isBig cfg e)) x.fortranOrder x.shape).length ≤ 245)
    (h41 : ∀ n, 41 ∉ decimalL l1 n) (hn : ∀ n ∈ x.shape, ReadsNumber l2 (decimalL l1 n) n)
    {s : IStream} (h : s.good = true) (r : Bytes) :
    loadL l2 cfg wideOps (s.withRest (savedWideL l1 cfg x e ++ r)) = (.ok x, s.withRest r) := by
  rw [savedWideL, List.append_assoc]
  have hh := readNpyHeaderL_saved cfg h (descrU_no_quote _ _) (setDescr_wide HeaderInfo.uninit _ hm _) h41 hlen
    (readShapeLoopL_tuple cfg hn) (x.values.flatMap (wideBytes cfg e (maxLength x.values)) ++ r)
  have := loadL_of_header (ops := wideOps) (by decide) hx hh rfl rfl rfl
    (readWide_ok rfl rfl (wideSwaps_stored cfg e) (fun v hv => isWide_lt (hw v hv)) h r)
  rw [this, dropNul_id hw h0]

/-- **C80** for tensors of strings: a program that saves and loads in the same locale gets them back. -/
theorem C80_roundtrip_unicode (cfg : Cfg) (loc : Locale) (hloc : Readable loc) (x : Tensor WStr)
    (hx : TensorOk .unicode 32 x) (hw : ∀ v ∈ x.values, IsWide cfg v) (h0 : ∀ v ∈ x.values, 0 ∉ v) (e : Endian)
    (hmax : longest x.values < 2 ^ 31)
    (hlen : (headerDictIn loc (descrU (longest x.values) (isBig cfg e)) x.fortranOrder x.shape).length ≤ 245) :
    ∃ bytes, saveToStringL loc cfg wideOps x e = .ok bytes ∧
      ∀ extra, loadL loc cfg wideOps (IStream.ofBytes (bytes ++ extra)) =
        (.ok x, { IStream.ofBytes (bytes ++ extra) with rest := extra }) := by
  refine ⟨_, saveToStringL_wide x e, fun extra => ?_⟩
  rw [← dictionaryTextL_spec, ← maxLength_eq] at hlen
  rw [← maxLength_eq] at hmax
  exact loadL_wide hx hw h0 e hmax hlen (decimalL_no_paren (sepOk_of hloc))
    (fun n hn => readsAs_decimalL (sepOk_of hloc) (hx.extents n hn))
    (IStream.ofBytes_good (savedWideL loc cfg x e ++ extra)) extra

/-- **C80** for tensors of strings: what is saved in the C locale is read correctly in every `Readable` locale. -/
theorem C80_load_saved_unicode (cfg : Cfg) (loc : Locale) (hloc : Readable loc) (x : Tensor WStr)
    (hx : TensorOk .unicode 32 x) (hw : ∀ v ∈ x.values, IsWide cfg v) (h0 : ∀ v ∈ x.values, 0 ∉ v) (e : Endian)
    (hmax : longest x.values < 2 ^ 31)
    (hlen : (headerDict (descrU (longest x.values) (isBig cfg e)) x.fortranOrder x.shape).length ≤ 245) :
    ∃ bytes, saveToString cfg wideOps x e = .ok bytes ∧
      ∀ extra, loadL loc cfg wideOps (IStream.ofBytes (bytes ++ extra)) =
        (.ok x, { IStream.ofBytes (bytes ++ extra) with rest := extra }) := by
  refine ⟨_, saveToString_wide x e, fun extra => ?_⟩
  rw [← dictionaryText_eq_spec, ← dictionaryTextL_none, ← maxLength_eq] at hlen
  rw [← maxLength_eq] at hmax
  have he : savedWide cfg x e = savedWideL none cfg x e := by
    unfold savedWideL savedWide headerBytesL headerBytes
    rw [dictionaryTextL_none]
  rw [he]
  exact loadL_wide hx hw h0 e hmax hlen (decimalL_no_paren (loc := none) trivial)
    (fun n hn => readsAs_decimal (sepOk_of hloc) (hx.extents n hn))
    (IStream.ofBytes_good (savedWideL none cfg x e ++ extra)) extra

/-! ### Archives -/

theorem saveL_small {α : Type} {p : Numpunct} (hk : 0 < p.group) (cfg : Cfg) (ops : ElemOps α) (t : Tensor α)
    (h : ∀ n ∈ t.shape, n < 10 ^ p.group) (e : Endian) (o : OStream) : saveL (some p) cfg ops t e o = save cfg ops t e o := by
  unfold saveL save writeNpyHeaderL writeNpyHeader dictionaryTextL dictionaryText
  simp only [shapeTextL_small hk h]
  rfl

/-- **C80** for archives: in a locale that does not group digits writing and reading are what the other properties describe;
in one that groups `k` digits, writing a tensor whose extents have at most `k` digits is. This holds for every state of the
writer, element type and compression method. -/
theorem C80_archive_write {α : Type} (cfg : Cfg) (codec : Codec) (ops : ElemOps α) (name : Bytes) (t : Tensor α) :
    Writer.writeL none cfg codec ops name t = Writer.write cfg codec ops name t ∧
    Reader.readL none cfg codec ops name = Reader.read cfg codec ops name ∧
    Reader.peekL none cfg codec name = Reader.peek cfg codec name ∧
    ∀ p : Numpunct, 0 < p.group → (∀ n ∈ t.shape, n < 10 ^ p.group) →
      Writer.writeL (some p) cfg codec ops name t = Writer.write cfg codec ops name t := by
  refine ⟨?_, ?_, ?_, fun p hk h => ?_⟩
  · unfold Writer.writeL Writer.write
    simp only [saveL_none]
    rfl
  · unfold Reader.readL Reader.read
    simp only [loadL_none]
  · unfold Reader.peekL Reader.peek Npy.peekL Npy.peek
    simp only [readNpyHeaderL_none]
  · unfold Writer.writeL Writer.write
    simp only [saveL_small hk cfg ops t h]
    rfl

theorem storable_loadL {cfg : Cfg} {loc : Locale} (hloc : Readable loc) {e : Endian} {t : AnyTensor} (h : Storable cfg e t) :
    ∃ f, saveToString cfg t.ops t.x e = .ok f ∧ (loadL loc cfg t.ops (IStream.ofBytes f)).1 = .ok t.x := by
  cases h with
  | fixed dt ht x hx hv hlen =>
    obtain ⟨f, h1, h2⟩ := C80_load_saved cfg loc hloc dt ht x hx hv e hlen
    refine ⟨f, h1, ?_⟩
    have := h2 []
    rw [List.append_nil] at this
    simp only [this]
  | wide x hx hw h0 hmax hlen =>
    obtain ⟨f, h1, h2⟩ := C80_load_saved_unicode cfg loc hloc x hx hw h0 e hmax hlen
    refine ⟨f, h1, ?_⟩
    have := h2 []
    rw [List.append_nil] at this
    simp only [this]

/-- **C80** for archives: what `C30_by_size` says of programs that run in the C locale holds also if the archive is read in
any `Readable` locale. -/
theorem C80_archive_read (cfg : Cfg) (loc : Locale) (hloc : Readable loc) (codec : Codec) (e : Endian) (puts : List (Bytes × AnyTensor))
    (hok : ∀ p ∈ puts, Storable cfg e p.2) (hcount : puts.length < 65536) (hnames : ∀ p ∈ puts, p.1.length < 65532)
    (size : Bytes × AnyTensor → Nat) (hsize : ∀ p ∈ puts, ∃ n ≤ size p, DataBytes p.2 n)
    (htotal : (puts.map fun p => 310 + p.1.length + size p).sum < 2 ^ 32) :
    ∃ w w', Writer.writeAll cfg codec puts (Writer.newString STORED e) = (.ok (), w) ∧ Writer.close w = (.ok (), w') ∧
      ∀ s : IStream, s = IStream.ofBytes w'.str ∨ s = IStream.ofFile w'.str → ∃ r, Reader.open s = .ok r ∧
        ∀ (calls : List RdCall) (name : Bytes) (t : AnyTensor), lookup puts name = some t →
            (Reader.readL loc cfg codec t.ops name (r.after cfg codec calls)).1 = .ok t.x := by
  obtain ⟨w, h1, -⟩ := C30_npz_roundtrip cfg codec e puts hok
  have hlen := Nat.lt_of_le_of_lt (archive_fits hok hsize h1) htotal
  have hn : ∀ p ∈ puts, (storedName p.1).length < 2 ^ 16 := fun p hp => by
    have := storedName_length_le p.1
    have := hnames p hp
    omega
  obtain ⟨w', c1, -, c3⟩ := writer_reads (newString_inv STORED e) (show STORED < 2 ^ 16 by decide) h1 hlen hn
  refine ⟨w, w', h1, c1, fun s hs => ?_⟩
  have hs' : s.Ready w'.str := by rcases hs with rfl | rfl; exacts [ready_ofBytes _, ready_ofFile _]
  obtain ⟨r, o1, -, o3⟩ := c3 s hs'
  refine ⟨r, o1, fun calls name t hl => ?_⟩
  have h3 := (o3 calls name).1
  rw [Nat.mod_eq_of_lt (show puts.length < 2 ^ 16 from hcount), List.take_length, hl] at h3
  simp only [] at h3
  obtain ⟨m, hm⟩ := lookup_mem hl
  obtain ⟨f, f1, f2⟩ := storable_loadL hloc (hok _ hm)
  have f1' : saveToString cfg t.ops t.x (Writer.newString STORED e).endianness = .ok f := f1
  obtain ⟨n, hn1, hb⟩ := hsize _ hm
  have f3 := (storable_length (hok _ hm) hb f1).1
  have f4 := le_sum_of_mem' (f := fun p : Bytes × AnyTensor => 310 + p.1.length + size p) hm
  rw [f1', show (Writer.newString STORED e).method = STORED from rfl] at h3
  simp only [Except.bind] at h3
  rw [readBack_stored codec (by omega)] at h3
  unfold Reader.readL
  rw [SM.bind_apply]
  match hr : Reader.readFile codec name (r.after cfg codec calls) with
  | (.ok b, r') =>
    rw [hr] at h3
    cases h3
    exact f2
  | (.error er, r') =>
    rw [hr] at h3
    cases h3

/-- The three tensors of the example, read in a German locale. -/
example : ∃ w w' r, Writer.writeAll exCfg noCodec exPuts (Writer.newString STORED .little) = (.ok (), w) ∧
    Writer.close w = (.ok (), w') ∧ Reader.open (IStream.ofBytes w'.str) = .ok r ∧
    (Reader.readL (some exGerman) exCfg noCodec wideOps b!"y" r).1 = .ok exWide := by
  obtain ⟨w, w', h1, h2, h3⟩ := C80_archive_read exCfg (some exGerman) (by unfold Readable; decide) noCodec .little exPuts
    exPuts_storable (by decide) (by decide) (fun _ => 100) exPuts_size (by decide)
  obtain ⟨r, h4, h5⟩ := h3 _ (.inl rfl)
  exact ⟨w, w', r, h1, h2, h4, h5 [] b!"y" ⟨WStr, wideOps, exWide⟩ rfl⟩

/-- Strings in a German locale. -/
example : ∃ bytes, saveToStringL (some exGerman) exCfg wideOps exWide .little = .ok bytes ∧
    loadL (some exGerman) exCfg wideOps (IStream.ofBytes (bytes ++ [])) = (.ok exWide, { IStream.ofBytes (bytes ++ []) with rest := [] }) := by
  obtain ⟨b, h1, h2⟩ := C80_roundtrip_unicode exCfg (some exGerman) (by unfold Readable; decide) exWide
    (Tensor.ok_of_strides (by decide) (by decide) (by decide) rfl (by decide)) (by unfold IsWide; decide) (by decide) .little (by decide)
    (by rw [← dictionaryTextL_spec, descrU, ← decimal_eq_spec]; decide +kernel)
  exact ⟨b, h1, h2 []⟩

/-- In an American locale the entry of an archive comes back as its first element, and nothing is reported. -/
theorem C80_archive_false : ∃ w w' r, Writer.writeAll exCfg noCodec exPuts (Writer.newString STORED .little) = (.ok (), w) ∧
    Writer.close w = (.ok (), w') ∧ Reader.open (IStream.ofBytes w'.str) = .ok r ∧
    (Reader.readL (some exAmerican) exCfg noCodec (fixedOps .float64) b!"x" r).1 = .ok ⟨[], [], false, .float64, [[4611686018427387904]]⟩ ∧
    exTensor2.values.length = 2 := by
  obtain ⟨w, w', h1, h2, h3⟩ := C30_by_size exCfg noCodec .little exPuts exPuts_storable (by decide) (by decide) (fun _ => 100)
    exPuts_size (by decide)
  obtain ⟨r, h4, -⟩ := h3 _ (.inl rfl)
  refine ⟨w, w', r, h1, h2, h4, ?_, rfl⟩
  have e1 : w = (Writer.writeAll exCfg noCodec exPuts (Writer.newString STORED .little)).2 := by rw [h1]
  have e2 : w' = (Writer.close w).2 := by rw [h2]
  have e3 : r = (Reader.open (IStream.ofBytes w'.str)).toOption.getD default := by rw [h4]; rfl
  rw [e3, e2, e1]
  decide +kernel

theorem loadL_inv {α : Type} {loc : Locale} {cfg : Cfg} {ops : ElemOps α} {s s' : IStream} {x : Tensor α}
    (h : loadL loc cfg ops s = (.ok x, s')) :
    ∃ info s1, peekL loc cfg s = (.ok info, s1) ∧ info.fortranOrder = some x.fortranOrder ∧ info.shape = x.shape ∧
      info.dtype = some x.dtype := by
  unfold loadL at h
  obtain ⟨info, s1, hp, h2⟩ := SM.of_bind_ok h
  unfold Tensor.load at h2
  match hf : info.fortranOrder with
  | none => rw [hf] at h2; simp at h2
  | some f =>
    rw [hf] at h2
    simp only [] at h2
    obtain ⟨r, s2, hn, h3⟩ := SM.of_bind_ok h2
    simp only [SM.lift_apply, Prod.mk.injEq] at hn
    obtain ⟨hn, rfl⟩ := hn
    unfold Tensor.new at hn
    split at hn
    · simp at hn
    · rename_i hsz
      simp only [Except.ok.injEq] at hn
      subst hn
      match hd : info.dtype with
      | none => rw [hd] at h3; simp at h3
      | some d =>
        rw [hd] at h3
        simp only [] at h3
        split at h3
        · simp at h3
        · rename_i hde
          obtain ⟨vals, s3, hr, h4⟩ := SM.of_bind_ok h3
          simp only [SM.pure_apply, Prod.mk.injEq, Except.ok.injEq] at h4
          obtain ⟨rfl, rfl⟩ := h4
          simp only [ne_eq, not_not] at hde
          simp only [List.length_replicate] at hr
          exact ⟨info, s1, hp, hf, rfl, by rw [hd, hde]⟩

/-- **C80**: whatever the locale does to a header, `load` and `peek` see the same; on streams and in archives. -/
theorem C80_load_agrees_with_peek {α : Type} (loc : Locale) (cfg : Cfg) (codec : Codec) (ops : ElemOps α) (x : Tensor α) :
    (∀ s s' : IStream, loadL loc cfg ops s = (.ok x, s') →
      ∃ info s1, peekL loc cfg s = (.ok info, s1) ∧ info.shape = x.shape ∧ info.fortranOrder = some x.fortranOrder ∧
        info.dtype = some x.dtype) ∧
    ∀ (r r' : Reader) (name : Bytes), Reader.readL loc cfg codec ops name r = (.ok x, r') →
      ∃ info, Reader.peekL loc cfg codec name r = (.ok info, r') ∧ info.shape = x.shape ∧
        info.fortranOrder = some x.fortranOrder ∧ info.dtype = some x.dtype := by
  refine ⟨fun s s' h => ?_, fun r r' name h => ?_⟩
  · obtain ⟨info, s1, h1, h2, h3, h4⟩ := loadL_inv h
    exact ⟨info, s1, h1, h3, h2, h4⟩
  · unfold Reader.readL at h
    obtain ⟨bytes, r1, h1, h2⟩ := SM.of_bind_ok h
    simp only [SM.lift_apply, Prod.mk.injEq] at h2
    obtain ⟨h2, rfl⟩ := h2
    obtain ⟨info, s1, g1, g2, g3, g4⟩ := loadL_inv (Prod.ext h2 rfl : loadL loc cfg ops (IStream.ofBytes bytes) = (.ok x, _))
    refine ⟨info, ?_, g3, g2, g4⟩
    unfold Reader.peekL
    rw [SM.bind_ok h1, g1]
    rfl

/-- In an American locale the tensor of two elements is seen without axes, by `read` and by `peek`. -/
example : ∃ w w' r info, Writer.writeAll exCfg noCodec exPuts (Writer.newString STORED .little) = (.ok (), w) ∧
    Writer.close w = (.ok (), w') ∧ Reader.open (IStream.ofBytes w'.str) = .ok r ∧
    (Reader.peekL (some exAmerican) exCfg noCodec b!"x" r).1 = .ok info ∧ info.shape = [] := by
  obtain ⟨w, w', r, h1, h2, h3, h4, -⟩ := C80_archive_false
  obtain ⟨info, g1, g2, -⟩ := (C80_load_agrees_with_peek (some exAmerican) exCfg noCodec (fixedOps .float64) _).2 r _ b!"x"
    (Prod.ext h4 rfl)
  exact ⟨w, w', r, info, h1, h2, h3, by rw [g1], g2⟩

end Npy
