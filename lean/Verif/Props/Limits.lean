import Verif.Props.Damage
import Verif.Props.Data
/-!
# The archive format and its limits (C42, C43, C44, C45)
-/

namespace Npy
open Spec (storedName Storable)

/-! ### C44: headers -/

/-- **C44**. For every entry with 64-bit sizes and offset, a 32-bit checksum, a 16-bit method and a name shorter than 65536: the
central directory header written for it reads back as the same entry, and so does its local header (which has no offset),
whatever follows. -/
theorem C44_headers (e : FileEntry) (hname : e.filename.length < 65536) (hcrc : e.crc32 < 2 ^ 32) (hcs : e.compressedSize < 2 ^ 64)
    (hus : e.uncompressedSize < 2 ^ 64) (hm : e.compressionMethod < 65536) (ho : e.offset < 2 ^ 64) (r : Bytes) :
    readCentralHeader (IStream.ofBytes (centralHeader e ++ r)) =
      (.ok e, { IStream.ofBytes (centralHeader e ++ r) with rest := r }) ∧
    ∀ z, readLocalHeader (IStream.ofBytes (localHeader e z ++ r)) =
      (.ok { e with offset := 0 }, { IStream.ofBytes (localHeader e z ++ r) with rest := r }) :=
  have he : e.Ok := ⟨hname, hcrc, hcs, hus, hm, ho⟩
  ⟨readCentralHeader_ok (s := IStream.ofBytes (centralHeader e ++ r)) rfl e he r,
    fun z => readLocalHeader_ok (s := IStream.ofBytes (localHeader e z ++ r)) rfl e he z r⟩

/-- An entry whose sizes and offset all need more than 32 bits. -/
def exEntry64 : FileEntry :=
  { filename := b!"big.npy", crc32 := 0xDEADBEEF, compressedSize := 2 ^ 40 + 1, uncompressedSize := 2 ^ 41 + 2,
    compressionMethod := 8, offset := 2 ^ 42 + 3 }

example : (readCentralHeader (IStream.ofBytes (centralHeader exEntry64 ++ b!"rest"))).1 = .ok exEntry64 := by
  rw [(C44_headers exEntry64 (by decide) (by decide) (by decide) (by decide) (by decide) (by decide) b!"rest").1]

/-! ### C42: number of entries -/

/-- **C42** (what happens instead). After any number of writes, only the first (number mod 65536) entries are in the directory a reader
uses: look-ups, `contains` and `keys` are those of the archive with only these writes. -/
theorem C42_count (cfg : Cfg) (codec : Codec) (e : Endian) (puts : List (Bytes × AnyTensor)) (w : Writer)
    (hw : Writer.writeAll cfg codec puts (Writer.newString STORED e) = (.ok (), w)) (hlen : w.str.length < 2 ^ 32)
    (hnames : ∀ p ∈ puts, (storedName p.1).length < 65536)
    (hfiles : ∀ p ∈ puts, ∀ f, saveToString cfg p.2.ops p.2.x e = .ok f → f.length < 2 ^ 32) :
    ∃ w', Writer.close w = (.ok (), w') ∧
      ∀ s : IStream, s = IStream.ofBytes w'.str ∨ s = IStream.ofFile w'.str → ∃ r, Reader.open s = .ok r ∧
        r.keys.Perm ((puts.take (puts.length % 65536)).map fun p => storedName p.1) ∧
        ∀ (calls : List RdCall) (name : Bytes),
          (r.after cfg codec calls).contains name = (Spec.lastWrite (puts.take (puts.length % 65536)) name).isSome ∧
          ∀ (α : Type) (ops : ElemOps α),
          (Reader.read cfg codec ops name (r.after cfg codec calls)).1 =
            match Spec.lookup (puts.take (puts.length % 65536)) name with
            | some t => (saveToString cfg t.ops t.x e).bind (loadFromString cfg ops)
            | none => .error (.throw (.invalidArgument .filename)) := by
  obtain ⟨w', c1, -, c3⟩ := writer_reads (newString_inv STORED e) (show STORED < 2 ^ 16 by decide) hw hlen hnames
  refine ⟨w', c1, fun s hs => ?_⟩
  have hready : s.Ready w'.str := by
    rcases hs with rfl | rfl
    · exact ready_ofBytes _
    · exact ready_ofFile _
  obtain ⟨r, o1, o2, o3⟩ := c3 s hready
  refine ⟨r, o1, by rw [o2]; exact sortKeys_perm _, fun calls name => ?_⟩
  obtain ⟨q1, q2, -⟩ := o3 calls name
  refine ⟨q2, fun α ops => ?_⟩
  rw [reader_read_eq, q1]
  match hl : Spec.lookup (puts.take (puts.length % 2 ^ 16)) name with
  | none => rfl
  | some t =>
    simp only []
    obtain ⟨n, hn⟩ := lookup_mem hl
    have hn := List.mem_of_mem_take hn
    match hf : saveToString cfg t.ops t.x e with
    | .error er => rfl
    | .ok f =>
      show (readBack codec STORED f).bind _ = _
      rw [readBack_stored codec (hfiles _ hn f hf)]

theorem flatMap_length_le {α β : Type} (f : α → List β) (k : Nat) (l : List α) (h : ∀ a ∈ l, (f a).length ≤ k) :
    (l.flatMap f).length ≤ l.length * k := by
  induction l with
  | nil => simp
  | cons a l ih =>
    rw [List.flatMap_cons, List.length_append, List.length_cons, Nat.add_mul, Nat.one_mul]
    have := h a (by simp)
    have := ih fun b hb => h b (by simp [hb])
    omega

/-- Size of the archive body made by stored writes. -/
theorem stored_length_le {cfg : Cfg} {codec : Codec} {e : Endian} {puts : List (Bytes × AnyTensor)} {w : Writer}
    (hw : Writer.writeAll cfg codec puts (Writer.newString STORED e) = (.ok (), w)) (k : Nat)
    (hk : ∀ p ∈ puts, ∀ f, saveToString cfg p.2.ops p.2.x e = .ok f → 50 + (storedName p.1).length + f.length % 2 ^ 32 ≤ k) :
    w.str.length ≤ puts.length * k := by
  obtain ⟨items, i1, -, i3⟩ := writeAll_inv (newString_inv STORED e) hw
  rw [List.nil_append] at i1
  have : w.str = items.flatMap recBytes := i1.buf
  rw [this, i3.length_eq]
  refine flatMap_length_le _ _ _ fun i hi => ?_
  obtain ⟨p, hp, f, hf, ho⟩ := forall₂_mem_right i3 hi
  obtain ⟨d, d1, d2, d3⟩ := ho.comp
  simp only [compressWith, Writer.newString, if_pos, Except.ok.injEq] at d1
  subst d1
  unfold recBytes
  rw [List.length_append, localHeader_stored_length (by rw [d2, ho.usize]), ho.filename, d3, List.length_take]
  have := hk p hp f hf
  have : min (f.length % 2 ^ 32) f.length ≤ f.length % 2 ^ 32 := Nat.min_le_left _ _
  split <;> omega

/-- **C42** is false: after 65536 writes of storable tensors, all of which return, the archive opens but no name can be found in it. -/
theorem C42_false : ∃ (puts : List (Bytes × AnyTensor)) (w w' : Writer) (r : Reader), puts.length = 65536 ∧
    (∀ p ∈ puts, Storable exCfg .little p.2) ∧
    Writer.writeAll exCfg noCodec puts (Writer.newString STORED .little) = (.ok (), w) ∧ Writer.close w = (.ok (), w') ∧
    Reader.open (IStream.ofBytes w'.str) = .ok r ∧ r.keys = [] ∧
    ∀ name (α : Type) (ops : ElemOps α), (Reader.read exCfg noCodec ops name r).1 = .error (.throw (.invalidArgument .filename)) := by
  obtain ⟨p, hp⟩ : ∃ p : Bytes × AnyTensor, p = (b!"x", ⟨Elem, fixedOps .int16, exTensor⟩) := ⟨_, rfl⟩
  have hst : Storable exCfg .little p.2 := by rw [hp]; exact exPuts_storable (b!"x", ⟨Elem, fixedOps .int16, exTensor⟩) (by simp [exPuts])
  obtain ⟨f, hf, -⟩ := storable_roundtrip hst
  have hfl : f.length = 140 := by
    have : f = (saveToString exCfg (fixedOps .int16) exTensor .little).toOption.getD [] := by
      rw [hp] at hf
      have hf : saveToString exCfg (fixedOps .int16) exTensor .little = .ok f := hf
      rw [hf]; rfl
    rw [this]; decide +kernel
  have hname : (storedName p.1).length = 5 := by rw [hp]; decide
  obtain ⟨n, hn⟩ : ∃ n : Nat, n = 65536 := ⟨_, rfl⟩
  have hall : ∀ q ∈ List.replicate n p, q = p := fun q hq => List.eq_of_mem_replicate hq
  obtain ⟨w, hw⟩ := writeAll_ok (cfg := exCfg) (codec := noCodec) (List.replicate n p) (newString_inv STORED .little) (by
    intro q hq
    rw [hall q hq]
    exact ⟨f, f, hf, rfl⟩)
  have hlen : w.str.length < 2 ^ 32 := by
    have := stored_length_le hw 195 (by
      intro q hq f' hf'
      rw [hall q hq] at hf' ⊢
      rw [hf, Except.ok.injEq] at hf'
      rw [← hf', hname, hfl]
      decide)
    rw [List.length_replicate, hn] at this
    omega
  obtain ⟨w', c1, c2⟩ := C42_count exCfg noCodec .little _ w hw hlen (by intro q hq; rw [hall q hq, hname]; decide) (by
    intro q hq f' hf'
    rw [hall q hq, hf, Except.ok.injEq] at hf'
    rw [← hf', hfl]; decide)
  obtain ⟨r, o1, o2, o3⟩ := c2 _ (.inl rfl)
  have hz : n % 65536 = 0 := by rw [hn]
  rw [List.length_replicate, hz] at o2
  refine ⟨_, w, w', r, by rw [List.length_replicate, hn], fun q hq => by rw [hall q hq]; exact hst, hw, c1, o1, ?_, ?_⟩
  · exact List.perm_nil.1 o2
  · intro name α ops
    have := (o3 [] name).2 α ops
    rw [List.length_replicate, hz] at this
    exact this

/-! ### C43: large payloads -/

/-- **C43** (what happens instead). What a reader gets for a stored entry is the file cut to its length modulo 2^32, and this passes the
checksum: no error is reported by the archive. -/
theorem C43_cut (cfg : Cfg) (codec : Codec) (e : Endian) (puts : List (Bytes × AnyTensor)) (w : Writer)
    (hw : Writer.writeAll cfg codec puts (Writer.newString STORED e) = (.ok (), w)) (hlen : w.str.length < 2 ^ 32)
    (hcount : puts.length < 65536) (hnames : ∀ p ∈ puts, (storedName p.1).length < 65536) :
    ∃ w', Writer.close w = (.ok (), w') ∧
      ∀ s : IStream, s = IStream.ofBytes w'.str ∨ s = IStream.ofFile w'.str → ∃ r, Reader.open s = .ok r ∧
        ∀ (calls : List RdCall) (name : Bytes) (t : AnyTensor) (f : Bytes), Spec.lookup puts name = some t →
          saveToString cfg t.ops t.x e = .ok f → ∀ (α : Type) (ops : ElemOps α),
          (Reader.read cfg codec ops name (r.after cfg codec calls)).1 = loadFromString cfg ops (f.take (f.length % 2 ^ 32)) := by
  obtain ⟨w', c1, -, c3⟩ := writer_reads (newString_inv STORED e) (show STORED < 2 ^ 16 by decide) hw hlen hnames
  refine ⟨w', c1, fun s hs => ?_⟩
  have hready : s.Ready w'.str := by
    rcases hs with rfl | rfl
    · exact ready_ofBytes _
    · exact ready_ofFile _
  obtain ⟨r, o1, o2, o3⟩ := c3 s hready
  refine ⟨r, o1, fun calls name t f hl hf α ops => ?_⟩
  obtain ⟨q1, -, -⟩ := o3 calls name
  rw [Nat.mod_eq_of_lt (b := 2 ^ 16) hcount, List.take_length, hl] at q1
  rw [reader_read_eq, q1]
  show (Except.bind (Except.bind (saveToString cfg t.ops t.x e) _) _) = _
  rw [hf]
  show (readBack codec STORED f).bind _ = _
  rw [readBack_stored_cut]
  rfl

/-- A tensor of `n` bytes, all 1. -/
def ones (n : Nat) : Tensor Elem :=
  { shape := [n], ravelStrides := [1], fortranOrder := false, dtype := .int8, values := List.replicate n [1] }

theorem ones_ok {n : Nat} (h : n < 2 ^ 62) : Spec.TensorOk .int8 1 (ones n) where
  extents := by intro m hm; simp only [ones, List.mem_singleton] at hm; omega
  size := by simp only [ones, List.length_replicate, List.prod_cons, List.prod_nil, Nat.mul_one]; omega
  fits := by simp only [ones, List.length_replicate]; omega
  dtype := rfl
  stridesLength := rfl
  strides := by
    intro k hk
    simp only [ones, List.length_singleton, Nat.lt_one_iff] at hk
    subst hk
    simp [ones]

theorem ones_elems (n : Nat) : ∀ v ∈ (ones n).values, Spec.IsElem .int8 v := by
  intro v hv
  rw [List.eq_of_mem_replicate hv]
  exact ⟨rfl, by decide⟩

theorem ones_dict (n : Nat) (hd : (dictionaryText b!"|i1" false [n]).length ≤ 245) :
    (Spec.headerDict (Spec.descr .int8 (Spec.isBig exCfg .little)) (ones n).fortranOrder (ones n).shape).length ≤ 245 := by
  refine headerDict_length_le ?_
  have : Spec.descr .int8 (Spec.isBig exCfg .little) = b!"|i1" := by unfold Spec.descr; rw [← decimal_eq_spec]; decide
  rw [this]
  exact hd

theorem ones_storable {n : Nat} (h : n < 2 ^ 62) (hd : (dictionaryText b!"|i1" false [n]).length ≤ 245) :
    Storable exCfg .little ⟨Elem, fixedOps .int8, ones n⟩ :=
  .fixed .int8 (by decide) _ (ones_ok h) (ones_elems n) (ones_dict n hd)

/-- The file of such a tensor has a header of at most 256 bytes. -/
theorem ones_file {n : Nat} (h : n < 2 ^ 62) (hd : (dictionaryText b!"|i1" false [n]).length ≤ 245) :
    ∃ header data, saveToString exCfg (fixedOps .int8) (ones n) .little = .ok (header ++ data) ∧ header.length ≤ 256 ∧
      data.length = n ∧ ∀ j ≤ n, ∃ y, loadFromString exCfg (fixedOps .int8) (header ++ data.take j) = .ok y ∧
        y.shape = [n] ∧ ∀ i < n, j ≤ i → y.values[i]? = some [0] := by
  obtain ⟨header, data, h1, h2, h3⟩ := C13_truncated exCfg .int8 (by decide) (ones n) (ones_ok h) (ones_elems n) .little (ones_dict n hd)
  have hdl : data.length = n := by rw [h2]; simp [ones, Spec.itemSize, Spec.parts, Spec.width]
  have hs := saveToString_fixed (cfg := exCfg) (t := .int8) (by decide) (ones_elems n) .little
  rw [h1, Except.ok.injEq] at hs
  refine ⟨header, data, h1, ?_, hdl, fun j hj => ?_⟩
  · have hl := congrArg List.length hs
    unfold savedFixed at hl
    rw [List.length_append, List.length_append, headerBytes_length, hdl] at hl
    have hfix : ((ones n).values.flatMap (fixedBytes exCfg .int8 .little)).length = n := by
      have := flatMap_length 1 (fixedBytes exCfg .int8 .little) (ones n).values (fun v hv => fixedBytes_length
        ((validElem_iff .int8 (by decide) v).2 (ones_elems n v hv)))
      rw [this]; simp [ones]
    rw [hfix] at hl
    have hdd : (dictionaryText (Spec.descr .int8 (Spec.isBig exCfg .little)) (ones n).fortranOrder (ones n).shape).length ≤ 245 := by
      rw [dictionaryText_eq_spec]; exact ones_dict n hd
    generalize (dictionaryText (Spec.descr .int8 (Spec.isBig exCfg .little)) (ones n).fortranOrder (ones n).shape).length = L at *
    have : paddedDictLength L ≤ 246 := by
      unfold paddedDictLength STATIC_HEADER_LENGTH
      simp only []
      split <;> omega
    unfold STATIC_HEADER_LENGTH at hl
    omega
  · obtain ⟨y, y1, y2, -, -, -, -, y3, -⟩ := h3 j (by omega)
    refine ⟨y, y1, y2, fun i hi hji => ?_⟩
    exact y3 i (by simpa [ones] using hi) (by simpa [Spec.itemSize, Spec.parts, Spec.width] using hji)

/-- **C43** is false: a tensor of 2^32 bytes equal to 1, stored and read back without any error, comes back with all bytes 0. -/
theorem C43_false : ∃ (x y : Tensor Elem) (w w' : Writer) (r : Reader), Storable exCfg .little ⟨Elem, fixedOps .int8, x⟩ ∧
    Writer.writeAll exCfg noCodec [(b!"x", ⟨Elem, fixedOps .int8, x⟩)] (Writer.newString STORED .little) = (.ok (), w) ∧
    Writer.close w = (.ok (), w') ∧ Reader.open (IStream.ofBytes w'.str) = .ok r ∧
    (Reader.read exCfg noCodec (fixedOps .int8) b!"x" r).1 = .ok y ∧ y.shape = x.shape ∧
    ∀ i < 2 ^ 32, x.values[i]? = some [1] ∧ y.values[i]? = some [0] := by
  obtain ⟨n, hn⟩ : ∃ n : Nat, n = 2 ^ 32 := ⟨_, rfl⟩
  have hd : (dictionaryText b!"|i1" false [n]).length ≤ 245 := by rw [hn]; decide
  have h62 : n < 2 ^ 62 := by rw [hn]; decide
  obtain ⟨header, data, h1, h2, h3, h4⟩ := ones_file h62 hd
  have hst := ones_storable h62 hd
  have hfl : (header ++ data).length % 2 ^ 32 = header.length := by
    rw [List.length_append, h3, hn, Nat.add_mod_right]; omega
  obtain ⟨w, hw⟩ := writeAll_ok (cfg := exCfg) (codec := noCodec) [(b!"x", ⟨Elem, fixedOps .int8, ones n⟩)] (newString_inv STORED .little) (by
    intro q hq
    simp only [List.mem_singleton] at hq
    subst hq
    exact ⟨_, _, h1, rfl⟩)
  have hlen : w.str.length < 2 ^ 32 := by
    have := stored_length_le hw 400 (by
      intro q hq f' hf'
      simp only [List.mem_singleton] at hq
      subst hq
      have hf' : saveToString exCfg (fixedOps .int8) (ones n) .little = .ok f' := hf'
      rw [h1, Except.ok.injEq] at hf'
      rw [← hf', hfl]
      have : (storedName b!"x").length = 5 := by decide
      simp only [this]
      omega)
    simp only [List.length_singleton] at this
    omega
  obtain ⟨w', c1, c2⟩ := C43_cut exCfg noCodec .little _ w hw hlen (show 1 < 65536 by decide)
    (by intro q hq; simp only [List.mem_singleton] at hq; subst hq; exact (by decide : (storedName b!"x").length < 65536))
  obtain ⟨r, o1, o2⟩ := c2 _ (.inl rfl)
  obtain ⟨y, y1, y2, y3⟩ := h4 0 (by omega)
  refine ⟨ones n, y, w, w', r, hst, hw, c1, o1, ?_, by rw [y2]; rfl, fun i hi => ⟨?_, y3 i (by omega) (by omega)⟩⟩
  · have := o2 [] b!"x" ⟨Elem, fixedOps .int8, ones n⟩ (header ++ data) rfl h1 Elem (fixedOps .int8)
    rw [hfl, List.take_left] at this
    rw [List.take_zero, List.append_nil] at y1
    rw [← y1]
    exact this
  · simp only [ones]
    rw [List.getElem?_replicate_of_lt (by omega)]

/-! ### C45: the ZIP format -/

theorem le_eq (k n : Nat) : Spec.le k n = leBytes k n := by
  induction k generalizing n with
  | zero => rfl
  | succ k ih =>
    rw [leBytes, ← ih]
    unfold Spec.le
    rw [List.range_succ_eq_map, List.map_cons, List.map_map]
    congr 1
    · simp only [Nat.pow_zero, Nat.div_one]
      apply UInt8.toNat.inj
      simp
    · refine List.map_congr_left fun i _ => ?_
      simp only [Function.comp, Nat.pow_succ, Nat.mul_comm (256 ^ i) 256, ← Nat.div_div_eq_div_mul]

/-- The file of an entry as the format describes it. -/
def zipItem (i : FileEntry × Bytes) : Spec.ZipItem := ⟨i.1.filename, i.1.compressionMethod, i.1.crc32, i.1.uncompressedSize, i.2⟩

theorem sharedHeader_zip {i : FileEntry × Bytes} (h1 : i.2.length = i.1.compressedSize) (h2 : i.1.compressedSize ≤ ZIP64_LIMIT)
    (h3 : i.1.uncompressedSize ≤ ZIP64_LIMIT) : sharedHeader i.1 = Spec.zipShared (zipItem i) := by
  unfold sharedHeader Spec.zipShared zipItem write32
  rw [if_neg (by omega), if_neg (by omega)]
  simp only [le_eq, w16, w32, h1]
  rfl

theorem recBytes_zip {i : FileEntry × Bytes} (h1 : i.2.length = i.1.compressedSize) (h2 : i.1.compressedSize ≤ ZIP64_LIMIT)
    (h3 : i.1.uncompressedSize ≤ ZIP64_LIMIT) : recBytes i = Spec.zipLocal (zipItem i) := by
  have hx : determineExtraLength i.1 false = 0 := by
    unfold determineExtraLength
    rw [if_neg (by omega), if_neg (by omega)]
    rfl
  unfold recBytes localHeader Spec.zipLocal
  rw [hx, sharedHeader_zip h1 h2 h3]
  simp only [le_eq, w16, decide_eq_true_eq]
  rw [if_neg (by omega), if_neg (by omega), List.append_nil]
  rfl

theorem centralHeader_zip {i : FileEntry × Bytes} (h1 : i.2.length = i.1.compressedSize) (h2 : i.1.compressedSize ≤ ZIP64_LIMIT)
    (h3 : i.1.uncompressedSize ≤ ZIP64_LIMIT) (h4 : i.1.offset ≤ ZIP64_LIMIT) :
    centralHeader i.1 = Spec.zipCentral (zipItem i) i.1.offset := by
  have hx : determineExtraLength i.1 true = 0 := by
    unfold determineExtraLength
    rw [if_neg (by omega), if_neg (by omega), if_neg (by simp; omega)]
  unfold centralHeader Spec.zipCentral
  simp only [hx]
  rw [sharedHeader_zip h1 h2 h3]
  simp only [le_eq, w16, w32, write32]
  rw [if_neg (by omega), if_neg (by omega), if_neg (by omega), List.append_nil]
  rfl

theorem directory_zip (items : List (FileEntry × Bytes)) (n : Nat)
    (h : ∀ i ∈ items, i.2.length = i.1.compressedSize ∧ i.1.compressedSize ≤ ZIP64_LIMIT ∧ i.1.uncompressedSize ≤ ZIP64_LIMIT ∧
      i.1.offset ≤ ZIP64_LIMIT)
    (ho : ∀ a i c, items = a ++ i :: c → i.1.offset = n + (a.flatMap recBytes).length) :
    (items.map (·.1)).flatMap centralHeader = Spec.zipDirectory n (items.map zipItem) := by
  induction items generalizing n with
  | nil => rfl
  | cons i items ih =>
    obtain ⟨h1, h2, h3, h4⟩ := h i (by simp)
    rw [List.map_cons, List.map_cons, List.flatMap_cons, Spec.zipDirectory, centralHeader_zip h1 h2 h3 h4]
    have hoff : i.1.offset = n := by simpa using ho [] i items rfl
    rw [hoff]
    congr 1
    refine ih _ (fun j hj => h j (by simp [hj])) fun a j c hs => ?_
    have := ho (i :: a) j c (by rw [hs]; rfl)
    rw [this, List.flatMap_cons, List.length_append, recBytes_zip h1 h2 h3]
    omega

theorem forall₂_imp_mem {α β : Type _} {R S : α → β → Prop} {as : List α} {bs : List β} (h : List.Forall₂ R as bs)
    (hi : ∀ a b, a ∈ as → b ∈ bs → R a b → S a b) : List.Forall₂ S as bs := by
  induction h with
  | nil => exact .nil
  | cons hab _ ih => exact .cons (hi _ _ (by simp) (by simp) hab) (ih fun a b ha hb => hi a b (by simp [ha]) (by simp [hb]))

/-- **C45**, without ZIP64. For every sequence of writes, by any method, whose body, files and compressed files are at most 0x8FFFFFFF
bytes long (the library's limit for plain headers): the closed archive, if shorter than 4 GiB, is exactly the ZIP archive
(`Spec.zipArchive`) of the files in the order written, with their stored names, method, sizes, CRC-32 and (compressed) data. -/
theorem C45_layout (cfg : Cfg) (codec : Codec) (method : Nat) (e : Endian) (puts : List (Bytes × AnyTensor)) (w : Writer)
    (hw : Writer.writeAll cfg codec puts (Writer.newString method e) = (.ok (), w)) (hlen : w.str.length ≤ 0x8FFFFFFF)
    (hcount : puts.length < 65536)
    (hfiles : ∀ p ∈ puts, ∀ f, saveToString cfg p.2.ops p.2.x e = .ok f →
      f.length ≤ 0x8FFFFFFF ∧ ∀ d, codec.deflate f = .ok d → d.length ≤ 0x8FFFFFFF) :
    ∃ w' zs, Writer.close w = (.ok (), w') ∧ (w'.str.length < 2 ^ 32 → w'.str = Spec.zipArchive zs) ∧
      List.Forall₂ (fun (p : Bytes × AnyTensor) (z : Spec.ZipItem) => ∃ f, saveToString cfg p.2.ops p.2.x e = .ok f ∧
        z.name = storedName p.1 ∧ z.method = method ∧ z.crc = Spec.crc32 f ∧ z.size = f.length ∧
        (method = STORED → z.data = f) ∧ (method ≠ STORED → codec.deflate f = .ok z.data)) puts zs := by
  obtain ⟨items, i1, i2, i3⟩ := writeAll_inv (newString_inv method e) hw
  rw [List.nil_append] at i1
  have i3 : List.Forall₂ (WroteAs cfg codec method e) puts items := i3
  have hbuf : (items.flatMap recBytes).length ≤ 0x8FFFFFFF := by rw [← i1.buf]; exact hlen
  -- every entry
  have hitem : ∀ p ∈ puts, ∀ i, WroteAs cfg codec method e p i → ∃ f, saveToString cfg p.2.ops p.2.x e = .ok f ∧
      ItemOf codec method p.1 f i ∧ f.length ≤ 0x8FFFFFFF ∧ i.1.uncompressedSize = f.length ∧ i.2.length = i.1.compressedSize ∧
      i.1.compressedSize ≤ 0x8FFFFFFF ∧ (method = STORED → i.2 = f) ∧ (method ≠ STORED → codec.deflate f = .ok i.2) := by
    rintro p hp i ⟨f, hf, ho⟩
    obtain ⟨hf1, hf2⟩ := hfiles p hp f hf
    obtain ⟨d, d1, d2, d3⟩ := ho.comp
    have hdl : d.length ≤ 0x8FFFFFFF := by
      unfold compressWith at d1
      split at d1
      · simp only [Except.ok.injEq] at d1; rw [← d1]; exact hf1
      · split at d1
        · exact hf2 d d1
        · simp at d1
    rw [Nat.mod_eq_of_lt (by omega)] at d2 d3
    rw [List.take_length] at d3
    refine ⟨f, hf, ho, hf1, by rw [ho.usize, Nat.mod_eq_of_lt (by omega)], by rw [d2, d3], by omega, fun hm => ?_, fun hm => ?_⟩
    · rw [d3]
      rw [compressWith, if_pos hm, Except.ok.injEq] at d1
      exact d1.symm
    · rw [compressWith, if_neg hm] at d1
      split at d1
      · rw [d3]; exact d1
      · simp at d1
  have hprops : ∀ i ∈ items, i.2.length = i.1.compressedSize ∧ i.1.compressedSize ≤ ZIP64_LIMIT ∧
      i.1.uncompressedSize ≤ ZIP64_LIMIT ∧ i.1.offset ≤ ZIP64_LIMIT := by
    intro i hi
    obtain ⟨p, hp, hwr⟩ := forall₂_mem_right i3 hi
    obtain ⟨f, -, -, a1, a2, a3, a4, -⟩ := hitem p hp i hwr
    refine ⟨a3, a4, by rw [a2]; exact a1, ?_⟩
    obtain ⟨a, c, hs⟩ := List.append_of_mem hi
    rw [i1.offs a i c hs]
    have : (a.flatMap recBytes).length ≤ 0x8FFFFFFF := by
      rw [hs, List.flatMap_append, List.length_append] at hbuf; omega
    refine Nat.le_trans (Nat.mod_le _ _) this
  have hoffs : ∀ a i c, items = a ++ i :: c → i.1.offset = 0 + (a.flatMap recBytes).length := by
    intro a i c hs
    rw [i1.offs a i c hs, Nat.zero_add, Nat.mod_eq_of_lt]
    rw [hs, List.flatMap_append, List.length_append] at hbuf; omega
  have hbody : items.flatMap recBytes = (items.map zipItem).flatMap Spec.zipLocal := by
    rw [List.flatMap_map]
    have : ∀ l : List (FileEntry × Bytes), (∀ i ∈ l, i ∈ items) → l.flatMap recBytes = l.flatMap fun i => Spec.zipLocal (zipItem i) := by
      intro l
      induction l with
      | nil => exact fun _ => rfl
      | cons j l ih =>
        intro hj
        obtain ⟨a1, a2, a3, -⟩ := hprops j (hj j (by simp))
        rw [List.flatMap_cons, List.flatMap_cons, ih fun i hi => hj i (by simp [hi]), recBytes_zip a1 a2 a3]
    exact this items fun _ h => h
  have hdir := directory_zip items 0 hprops hoffs
  obtain ⟨w', c1, -, c3⟩ := close_exact i1
  refine ⟨w', items.map zipItem, c1, fun hl => ?_, ?_⟩
  · rw [c3, hbody, hdir] at hl ⊢
    simp only [List.length_append] at hl
    unfold Spec.zipArchive
    congr 1
    rw [Nat.mod_eq_of_lt (b := 2 ^ 16) (by rw [← i3.length_eq]; exact hcount), Nat.mod_eq_of_lt (by omega), Nat.mod_eq_of_lt (by omega)]
    unfold endOfCentralDirectory Spec.zipEnd
    simp only [le_eq, w16, w32, List.length_map]
    rfl
  · rw [List.forall₂_map_right_iff]
    refine forall₂_imp_mem i3 fun p i hp _ hwr => ?_
    obtain ⟨f, hf, ho, a1, a2, a3, a4, a5, a6⟩ := hitem p hp i hwr
    refine ⟨f, hf, ho.filename, ho.method, ?_, a2, a5, a6⟩
    rw [← C41_crc32 f (by omega)]
    exact ho.crc

/-- **C45** on the example archive of three writes. -/
example : ∃ w w' zs, Writer.writeAll exCfg noCodec exPuts (Writer.newString STORED .little) = (.ok (), w) ∧
    Writer.close w = (.ok (), w') ∧ w'.str = Spec.zipArchive zs ∧
    zs.map (·.name) = [b!"x.npy", b!"y.npy", b!"x.npy"] := by
  obtain ⟨w, h1, -⟩ := C30_npz_roundtrip exCfg noCodec .little exPuts exPuts_storable
  have hw : w = (Writer.writeAll exCfg noCodec exPuts (Writer.newString STORED .little)).2 := by rw [h1]
  obtain ⟨w', zs, h2, h3, h4⟩ := C45_layout exCfg noCodec STORED .little exPuts w h1 (by rw [hw]; decide +kernel) (by decide) (by
    intro p hp f hf
    refine ⟨?_, by simp [noCodec]⟩
    have key : ∀ (r : Except Err Bytes), r = .ok f → r.toOption.getD [] = f := by rintro _ rfl; rfl
    rw [← key _ hf]
    simp only [exPuts, List.mem_cons, List.not_mem_nil, or_false] at hp
    rcases hp with rfl | rfl | rfl <;> decide +kernel)
  have hw' : w' = (Writer.close w).2 := by rw [h2]
  refine ⟨w, w', zs, h1, h2, h3 (by rw [hw', hw]; decide +kernel), ?_⟩
  rw [← forall₂_map_eq (f := fun p : Bytes × AnyTensor => storedName p.1) (g := fun z : Spec.ZipItem => z.name) ?_ h4]
  · decide
  · rintro a b ⟨f, -, hn, -⟩
    exact hn.symm

theorem leAt_append (a b : Bytes) (k v : Nat) : Spec.leAt (a ++ (leBytes k v ++ b)) a.length k = v % 256 ^ k := by
  have h1 := leAt_drop (a ++ (leBytes k v ++ b)) a.length 0 k
  rw [List.drop_left, Nat.add_zero] at h1
  rw [← h1, ← leHead_eq]
  clear h1
  induction k generalizing v with
  | zero => simp [leHead, Nat.mod_one]
  | succ k ih =>
    rw [leHead, leBytes]
    simp only [List.cons_append, List.getElem?_cons_zero, Option.getD_some, List.drop_succ_cons, List.drop_zero]
    rw [ih, UInt8.toNat_ofNat', show 256 ^ (k + 1) = 2 ^ 8 * 256 ^ k by rw [Nat.pow_succ, Nat.mul_comm]; rfl, Nat.mod_mul]
    rfl

/-- **C45** with ZIP64 is false: after writing a tensor of 0x90000000 bytes under the name `x`, the first header says that its name has 5
bytes and its extra field 16, so the data should start at 30 + 5 + 16 = 51; but 55 bytes stand before the file's bytes. -/
theorem C45_false : ∃ (x : Tensor Elem) (w w' : Writer) (f P Q : Bytes), Storable exCfg .little ⟨Elem, fixedOps .int8, x⟩ ∧
    Writer.writeAll exCfg noCodec [(b!"x", ⟨Elem, fixedOps .int8, x⟩)] (Writer.newString STORED .little) = (.ok (), w) ∧
    Writer.close w = (.ok (), w') ∧ saveToString exCfg (fixedOps .int8) x .little = .ok f ∧ w'.str = P ++ f ++ Q ∧
    P.length = 30 + 5 + 20 ∧ Spec.leAt w'.str 26 2 = 5 ∧ Spec.leAt w'.str 28 2 = 16 := by
  obtain ⟨n, hn⟩ : ∃ n : Nat, n = 0x90000000 := ⟨_, rfl⟩
  have hd : (dictionaryText b!"|i1" false [n]).length ≤ 245 := by rw [hn]; decide
  have h62 : n < 2 ^ 62 := by rw [hn]; decide
  obtain ⟨header, data, h1, h2, h3, -⟩ := ones_file h62 hd
  have hst := ones_storable h62 hd
  have hfl : (header ++ data).length = header.length + n := by rw [List.length_append, h3]
  have hname : (storedName b!"x").length = 5 := by decide
  obtain ⟨w, hw⟩ := writeAll_ok (cfg := exCfg) (codec := noCodec) [(b!"x", ⟨Elem, fixedOps .int8, ones n⟩)] (newString_inv STORED .little) (by
    intro q hq
    simp only [List.mem_singleton] at hq
    subst hq
    exact ⟨_, _, h1, rfl⟩)
  have hsave : ∀ q ∈ ([(b!"x", ⟨Elem, fixedOps .int8, ones n⟩)] : List (Bytes × AnyTensor)), ∀ f',
      saveToString exCfg q.2.ops q.2.x .little = .ok f' → f' = header ++ data ∧ (storedName q.1).length = 5 := by
    intro q hq f' hf'
    simp only [List.mem_singleton] at hq
    subst hq
    have hf' : saveToString exCfg (fixedOps .int8) (ones n) .little = .ok f' := hf'
    rw [h1, Except.ok.injEq] at hf'
    exact ⟨hf'.symm, hname⟩
  have hlen : w.str.length < 2 ^ 32 := by
    have := stored_length_le hw (55 + 256 + n) (by
      intro q hq f' hf'
      obtain ⟨rfl, e2⟩ := hsave q hq f' hf'
      rw [e2, hfl, Nat.mod_eq_of_lt (by omega)]
      omega)
    simp only [List.length_singleton] at this
    omega
  obtain ⟨w', f, P, Q, a1, a2, a3, a4, -⟩ := C40_burst exCfg noCodec .little [] [] b!"x" ⟨Elem, fixedOps .int8, ones n⟩
    (Writer.newString STORED .little) w rfl hw hlen (show 1 < 65536 by decide)
    (by
      intro q hq
      rw [(hsave q hq _ (by simp only [List.nil_append, List.mem_singleton] at hq; subst hq; exact h1)).2]
      decide)
    (by
      intro q hq f' hf'
      obtain ⟨rfl, -⟩ := hsave q hq f' hf'
      omega) (by simp)
  have hf : f = header ++ data := (hsave (b!"x", ⟨Elem, fixedOps .int8, ones n⟩) (by simp) f a1).1
  have hbig : f.length > ZIP64_LIMIT := by rw [hf, hfl, hn]; unfold ZIP64_LIMIT; omega
  have hf32 : f.length < 2 ^ 32 := by rw [hf, hfl, hn]; omega
  have hbig' : f.length > 0x8FFFFFFF := hbig
  refine ⟨ones n, w, w', f, P, Q, hst, hw, a2, a1, a3, ?_, ?_⟩
  · have e1 : (Writer.newString STORED .little).str.length = 0 := rfl
    rw [a4, e1, hname, if_pos hbig']
  · obtain ⟨items, i1, i2, i3⟩ := writeAll_inv (newString_inv STORED .little) hw
    rw [List.nil_append] at i1
    obtain ⟨w'', c1, -, c3⟩ := close_exact i1
    have : w'' = w' := by rw [a2] at c1; simpa using c1.symm
    subst this
    cases i3 with
    | @cons _ item _ items hi htl =>
    cases htl
    obtain ⟨f', hf', ho⟩ := hi
    have : f' = f := by
      have hf' : saveToString exCfg (fixedOps .int8) (ones n) .little = .ok f' := hf'
      rw [a1] at hf'
      simpa using hf'.symm
    subst this
    obtain ⟨d, d1, d2, -⟩ := ho.comp
    simp only [compressWith, Writer.newString, if_pos, Except.ok.injEq] at d1
    subst d1
    have hus := ho.usize
    rw [Nat.mod_eq_of_lt hf32] at d2 hus
    have hx : determineExtraLength item.1 false = 16 := by
      unfold determineExtraLength
      rw [if_pos (by omega), if_pos (by omega)]
      rfl
    have hfn : item.1.filename.length = 5 := by rw [ho.filename]; exact hname
    obtain ⟨T, hT⟩ : ∃ T, w''.str = recBytes item ++ T := by
      rw [c3, List.flatMap_cons, List.flatMap_nil, List.append_nil, List.append_assoc]
      exact ⟨_, rfl⟩
    obtain ⟨A, B, e1, e2⟩ : ∃ A B, w''.str = A ++ (leBytes 2 5 ++ (leBytes 2 16 ++ B)) ∧ A.length = 26 := by
      rw [hT]
      unfold recBytes localHeader sharedHeader
      rw [hx, hfn]
      simp only [w16]
      generalize (if decide (item.1.uncompressedSize > ZIP64_LIMIT ∨ item.1.compressedSize > ZIP64_LIMIT) = true then ZIP64_VERSION
        else STANDARD_VERSION) = v
      generalize (if 16 > 0 then zip64Extra item.1 false else []) = E
      refine ⟨LOCAL_HEADER_SIG ++ leBytes 2 v ++ (leBytes 2 0 ++ leBytes 2 item.1.compressionMethod ++ TIME ++ w32 item.1.crc32 ++
        write32 item.1.compressedSize ++ write32 item.1.uncompressedSize), item.1.filename ++ E ++ item.2 ++ T, ?_, ?_⟩
      · simp only [List.append_assoc]
      · simp [LOCAL_HEADER_SIG, TIME, w32, write32_eq]
    constructor
    · rw [e1, ← e2, leAt_append]; rfl
    · have : A ++ (leBytes 2 5 ++ (leBytes 2 16 ++ B)) = (A ++ leBytes 2 5) ++ (leBytes 2 16 ++ B) := by simp
      have e3 : (A ++ leBytes 2 5).length = 28 := by rw [List.length_append, e2, leBytes_length]
      rw [e1, this, ← e3, leAt_append]; rfl

end Npy
