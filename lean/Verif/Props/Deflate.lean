import Verif.Model.Miniz
import Verif.Proofs.DeflAll
import Verif.Proofs.DeflFail
import Verif.Proofs.DeflFuel
import Verif.Props.Inflate
import Verif.Props.Npz
/-!
# Properties of compression (C31, C52, C58, C59)

`npyDeflate dbg j fuel` is the model of `npy_deflate` with the bundled miniz (`Model/Deflate`): `dbg` says whether asserts
are checked, `j` is what the memory of the compressor holds before it is written, `fuel` bounds the rounds of every loop.
-/

namespace Npy
open Spec.Deflate
open Spec (Storable)

theorem Spec.Deflate.InflatesExactly.inflates {z out : Bytes} (h : InflatesExactly z out) : Inflates z out :=
  let ⟨b, r, h0, h1, h2, _, h3⟩ := h; ⟨b, r, h0, h1, h2, h3⟩

/-! ### C58: what the compressor makes -/

/-- **C58**. For every input under 4 GiB `npy_deflate` ends, throws nothing, has no undefined behaviour and fails no assertion (of zip.cpp, or of miniz as far as modelled),
and what it returns is a DEFLATE stream that follows RFC 1951 and stands for exactly the input; whatever the uninitialised
memory holds and whether or not asserts are checked. -/
theorem C58_standard (dbg : Bool) (j : Junk) (b : Bytes) (hb : b.length < 2 ^ 32) (fuel : Nat) (hf : b.length + 260 ≤ fuel) :
    ∃ z, npyDeflate false dbg j fuel b = .ok z ∧ InflatesExactly z b := by
  obtain ⟨z, h1, h2, -⟩ := npyDeflate_ok dbg j fuel b hb hf
  exact ⟨z, h1, h2⟩

/-- A million bytes, all the same, with memory full of ones. -/
example : ∃ z, npyDeflate false true ⟨fun _ => 255, fun _ => 65535, 255⟩ 2000000 (List.replicate 1000000 65) = .ok z ∧
    InflatesExactly z (List.replicate 1000000 65) :=
  C58_standard _ _ _ (by rw [List.length_replicate]; norm_num) _ (by rw [List.length_replicate]; norm_num)

/-- **C58**, size. Compressed data are at most three times as long as the input, plus nine bytes. -/
theorem C58_size (dbg : Bool) (j : Junk) (b : Bytes) (hb : b.length < 2 ^ 32) (fuel : Nat) (hf : b.length + 260 ≤ fuel)
    (z : Bytes) (h : npyDeflate false dbg j fuel b = .ok z) : z.length ≤ 3 * b.length + 9 := by
  obtain ⟨z', h1, -, h3⟩ := npyDeflate_ok dbg j fuel b hb hf
  rw [h1, Except.ok.injEq] at h
  rw [← h]
  exact h3

example (j : Junk) : ∃ z, npyDeflate false false j 300 [] = .ok z ∧ z.length ≤ 9 := by
  obtain ⟨z, h, -⟩ := C58_standard false j [] (by decide) 300 (by decide)
  exact ⟨z, h, C58_size false j [] (by decide) 300 (by decide) z h⟩

/-! ### C52: decompression inverts compression -/

/-- **C52** for up to 32768 bytes: what is compressed is given back exactly. -/
theorem C52_window (dbg : Bool) (j : Junk) (b : Bytes) (hb : b.length ≤ 32768) (fuel : Nat) (hf : b.length + 260 ≤ fuel) :
    ∃ z, npyDeflate false dbg j fuel b = .ok z ∧
      ∀ fuel', 8 * z.length + b.length + 2 ≤ fuel' → npyInflate false fuel' z = .ok b := by
  obtain ⟨z, h1, h2⟩ := C58_standard dbg j b (by omega) fuel hf
  exact ⟨z, h1, fun fuel' hf' => C55_window z b h2.inflates hb fuel' hf'⟩

/-- **C52** for most sizes beyond: all but those from 1 to 8127 more than a multiple of 32768, when the data or the compressed
data are at most 1 MiB. -/
theorem C52_most_sizes (dbg : Bool) (j : Junk) (b : Bytes) (hb : b.length < 2 ^ 32) (hfar : 8127 ≤ (b.length - 1) % 32768)
    (fuel : Nat) (hf : b.length + 260 ≤ fuel) :
    ∃ z, npyDeflate false dbg j fuel b = .ok z ∧ (b.length ≤ 1048576 ∨ z.length ≤ 1048576 →
      ∀ fuel', 8 * z.length + b.length + 2 ≤ fuel' → npyInflate false fuel' z = .ok b) := by
  obtain ⟨z, h1, h2⟩ := C58_standard dbg j b hb fuel hf
  exact ⟨z, h1, fun hs fuel' hf' => C55_most_sizes z b h2.inflates hfar hs.symm fuel' hf'⟩

/-- **C52** when the data or the compressed data are at most 1 MiB: decompression gives back exactly what was compressed or
throws `runtime_error`; never other bytes, undefined behaviour or an endless loop. -/
theorem C52_never_wrong (dbg : Bool) (j : Junk) (b : Bytes) (hb : b.length < 2 ^ 32) (fuel : Nat) (hf : b.length + 260 ≤ fuel) :
    ∃ z, npyDeflate false dbg j fuel b = .ok z ∧ (b.length ≤ 1048576 ∨ z.length ≤ 1048576 →
      ∀ fuel', 8 * z.length + b.length + 2 ≤ fuel' →
        npyInflate false fuel' z = .ok b ∨ npyInflate false fuel' z = .error (.throw (.runtimeError .inflateError))) := by
  obtain ⟨z, h1, h2⟩ := C58_standard dbg j b hb fuel hf
  exact ⟨z, h1, fun hs fuel' hf' => C55_never_wrong z b h2.inflates hs.symm fuel' hf'⟩

/-- **C52** is false of the program for longer data, and 32768 in `C52_window` is the best bound: 32769 zero bytes are compressed
without an error, to a stream that follows RFC 1951 (`C58_standard`), and decompressing that stream throws `runtime_error`. -/
theorem C52_false (dbg : Bool) (j : Junk) (fuel : Nat) (hf : 33100 ≤ fuel) :
    ∃ z, npyDeflate false dbg j fuel (List.replicate 32769 0) = .ok z ∧ InflatesExactly z (List.replicate 32769 0) ∧
      ∀ fuel', 200 ≤ fuel' → npyInflate false fuel' z = .error (.throw (.runtimeError .inflateError)) := by
  obtain ⟨z, h1, h2⟩ := zeros_fail dbg j fuel (by omega)
  obtain ⟨z', h3, h4⟩ := C58_standard dbg j (List.replicate 32769 0) (by rw [List.length_replicate]; norm_num) fuel
    (by rw [List.length_replicate]; omega)
  change npyDeflate false dbg j fuel manyZeros = _ at h3
  rw [h1, Except.ok.injEq] at h3
  rw [← h3] at h4
  exact ⟨z, h1, h4, h2⟩

example (j : Junk) : ∃ z, npyDeflate false true j 40000 (List.replicate 20000 7) = .ok z ∧
    ∀ fuel', 8 * z.length + 20002 ≤ fuel' → npyInflate false fuel' z = .ok (List.replicate 20000 7) := by
  obtain ⟨z, h1, h2⟩ := C52_window true j (List.replicate 20000 7) (by rw [List.length_replicate]; norm_num) 40000
    (by rw [List.length_replicate]; norm_num)
  rw [List.length_replicate] at h2
  exact ⟨z, h1, h2⟩

example (j : Junk) : ∃ z, npyDeflate false false j 1000000 (List.replicate 900000 7) = .ok z ∧
    ∀ fuel', 8 * z.length + 900002 ≤ fuel' → npyInflate false fuel' z = .ok (List.replicate 900000 7) ∨
      npyInflate false fuel' z = .error (.throw (.runtimeError .inflateError)) := by
  obtain ⟨z, h1, h2⟩ := C52_never_wrong false j (List.replicate 900000 7) (by rw [List.length_replicate]; norm_num) 1000000
    (by rw [List.length_replicate]; norm_num)
  rw [List.length_replicate] at h2
  exact ⟨z, h1, h2 (.inl (by norm_num))⟩

/-- 900000 bytes, and exactly two windows. -/
example (j : Junk) : ∃ z, npyDeflate false false j 1000000 (List.replicate 900000 7) = .ok z ∧
    ∀ fuel', 8 * z.length + 900002 ≤ fuel' → npyInflate false fuel' z = .ok (List.replicate 900000 7) := by
  obtain ⟨z, h1, h2⟩ := C52_most_sizes false j (List.replicate 900000 7) (by rw [List.length_replicate]; norm_num)
    (by rw [List.length_replicate]; norm_num) 1000000 (by rw [List.length_replicate]; norm_num)
  rw [List.length_replicate] at h2
  exact ⟨z, h1, h2 (.inl (by norm_num))⟩

example (j : Junk) (b : Bytes) (hb : b.length = 65536) : ∃ z, npyDeflate false true j 70000 b = .ok z ∧
    ∀ fuel', 8 * z.length + 65538 ≤ fuel' → npyInflate false fuel' z = .ok b := by
  obtain ⟨z, h1, h2⟩ := C52_most_sizes true j b (by omega) (by omega) 70000 (by omega)
  rw [hb] at h2
  exact ⟨z, h1, h2 (.inl (by norm_num))⟩

/-! ### C31: deflated archives -/

theorem Spec.Deflate.SafeSize.le {n : Nat} (h : SafeSize n) : n ≤ 1048576 := by
  rcases h with h | h <;> omega


/-- A file of a safe size comes back. -/
theorem miniz_givesBack (cfg : Cfg) (j : Junk) (n : Nat) (hn : 2 ^ 36 ≤ n) (hbig : cfg.nativeBig = false) (f : Bytes) (hf : SafeSize f.length) :
    GivesBack (miniz cfg j n) DEFLATED f := by
  obtain ⟨big, nd, w16⟩ := cfg
  obtain rfl : big = false := hbig
  have hle := hf.le
  obtain ⟨z, h1, h2⟩ := C58_standard (!nd) j f (by omega) n (by omega)
  have hz := C58_size _ _ _ (by omega) _ (by omega) z h1
  have hz' : z.length < 2 ^ 32 := by omega
  have h3 := C55_safe z f h2.inflates hf n (by omega)
  unfold GivesBack readBack compressWith
  rw [if_neg (by decide), if_pos rfl]
  simp only [miniz, h1]
  rw [Nat.mod_eq_of_lt hz', List.take_length]
  unfold finish decompressWith
  rw [if_pos rfl]
  simp only [h3]
  rw [if_neg (by simp)]

/-- **C31** for files of the sizes `SafeSize`. The same as `C30_npz_map` with DEFLATED compression. -/
theorem C31_npz_map (cfg : Cfg) (j : Junk) (n : Nat) (hn : 2 ^ 36 ≤ n) (hbig : cfg.nativeBig = false) (e : Endian) (puts : List (Bytes × AnyTensor)) (w : Writer)
    (hw : Writer.writeAll cfg (miniz cfg j n) puts (Writer.newString DEFLATED e) = (.ok (), w))
    (hlen : w.str.length < 2 ^ 32) (hcount : puts.length < 65536)
    (hnames : ∀ p ∈ puts, (Spec.storedName p.1).length < 65536)
    (hfiles : ∀ p ∈ puts, ∀ f, saveToString cfg p.2.ops p.2.x e = .ok f → SafeSize f.length) :
    ∃ w', Writer.close w = (.ok (), w') ∧
      ∀ s : IStream, s = IStream.ofBytes w'.str ∨ s = IStream.ofFile w'.str → ∃ r, Reader.open s = .ok r ∧
        ∀ (calls : List RdCall) (name : Bytes) (α : Type) (ops : ElemOps α),
          (Reader.read cfg (miniz cfg j n) ops name (r.after cfg (miniz cfg j n) calls)).1 =
            match Spec.lookup puts name with
            | some t => (saveToString cfg t.ops t.x e).bind (loadFromString cfg ops)
            | none => .error (.throw (.invalidArgument .filename)) :=
  archive_map cfg (miniz cfg j n) DEFLATED (by decide) e puts w hw hlen hcount hnames
    fun p hp f hf => miniz_givesBack cfg j n hn hbig f (hfiles p hp f hf)

/-- **C31**, round trip: any tensors whose NPY files exist and have a size in `SafeSize`. -/
theorem C31_npz_roundtrip (cfg : Cfg) (j : Junk) (n : Nat) (hn : 2 ^ 36 ≤ n) (hbig : cfg.nativeBig = false) (e : Endian) (puts : List (Bytes × AnyTensor))
    (hok : ∀ p ∈ puts, Storable cfg e p.2)
    (hfiles : ∀ p ∈ puts, ∀ f, saveToString cfg p.2.ops p.2.x e = .ok f → SafeSize f.length) :
    ∃ w, Writer.writeAll cfg (miniz cfg j n) puts (Writer.newString DEFLATED e) = (.ok (), w) ∧
      (w.str.length < 2 ^ 32 → puts.length < 65536 → (∀ p ∈ puts, (Spec.storedName p.1).length < 65536) →
        ∃ w', Writer.close w = (.ok (), w') ∧
          ∀ s : IStream, s = IStream.ofBytes w'.str ∨ s = IStream.ofFile w'.str → ∃ r, Reader.open s = .ok r ∧
            ∀ (calls : List RdCall) (name : Bytes) (t : AnyTensor), Spec.lookup puts name = some t →
              (Reader.read cfg (miniz cfg j n) t.ops name (r.after cfg (miniz cfg j n) calls)).1 = .ok t.x) := by
  obtain ⟨big, nd, w16⟩ := cfg
  obtain rfl : big = false := hbig
  obtain ⟨w, hw⟩ := writeAll_ok (cfg := ⟨false, nd, w16⟩) (codec := miniz ⟨false, nd, w16⟩ j n) puts (newString_inv DEFLATED e) (by
    intro p hp
    obtain ⟨f, h1, -⟩ := storable_roundtrip (hok p hp)
    have hf := (hfiles p hp f h1).le
    obtain ⟨z, h2, -⟩ := C58_standard (!nd) j f (by omega) n (by omega)
    refine ⟨f, z, h1, ?_⟩
    show compressWith (miniz ⟨false, nd, w16⟩ j n) DEFLATED f = _
    unfold compressWith
    rw [if_neg (by decide), if_pos rfl]
    exact h2)
  refine ⟨w, hw, ?_⟩
  intro hlen hcount hnames
  obtain ⟨w', c1, c2⟩ := C31_npz_map _ j n hn rfl e puts w hw hlen hcount hnames hfiles
  refine ⟨w', c1, fun s hs => ?_⟩
  obtain ⟨r, o1, o2⟩ := c2 s hs
  refine ⟨r, o1, ?_⟩
  intro calls name t hl
  rw [o2 calls name _ t.ops, hl]
  obtain ⟨n, hn⟩ := lookup_mem hl
  obtain ⟨f, h1, h2⟩ := storable_roundtrip (hok _ hn)
  simp only at h1 h2
  simp only [h1, Except.bind, h2]

/-- A file of up to 1 MiB comes back, or decompression throws. -/
theorem miniz_readBack (cfg : Cfg) (j : Junk) (n : Nat) (hn : 2 ^ 36 ≤ n) (hbig : cfg.nativeBig = false) (f : Bytes) (hf : f.length ≤ 1048576) :
    readBack (miniz cfg j n) DEFLATED f = .ok f ∨
      readBack (miniz cfg j n) DEFLATED f = .error (.throw (.runtimeError .inflateError)) := by
  obtain ⟨big, nd, w16⟩ := cfg
  obtain rfl : big = false := hbig
  obtain ⟨z, h1, h2⟩ := C52_never_wrong (!nd) j f (by omega) n (by omega)
  replace h2 := h2 (.inl hf)
  have hz := C58_size _ _ _ (by omega) _ (by omega) z h1
  have hz' : z.length < 2 ^ 32 := by omega
  have e : readBack (miniz ⟨false, nd, w16⟩ j n) DEFLATED f = finish (miniz ⟨false, nd, w16⟩ j n) DEFLATED (npyCrc32 f) z := by
    unfold readBack compressWith
    rw [if_neg (by decide), if_pos rfl]
    simp only [miniz, h1]
    rw [Nat.mod_eq_of_lt hz', List.take_length]
  rw [e]
  unfold finish decompressWith
  rw [if_pos rfl]
  rcases h2 n (by omega) with h3 | h3
  · left
    simp only [miniz, h3]
    rw [if_neg (by simp)]
  · right
    simp only [miniz, h3]

/-- **C31** for files up to 1 MiB (any number of them): every name gives what `load` gives for the file of the tensor most
recently written under it, or the reader throws `runtime_error`; never anything else. -/
theorem C31_never_wrong (cfg : Cfg) (j : Junk) (n : Nat) (hn : 2 ^ 36 ≤ n) (hbig : cfg.nativeBig = false) (e : Endian) (puts : List (Bytes × AnyTensor)) (w : Writer)
    (hw : Writer.writeAll cfg (miniz cfg j n) puts (Writer.newString DEFLATED e) = (.ok (), w))
    (hlen : w.str.length < 2 ^ 32) (hcount : puts.length < 65536)
    (hnames : ∀ p ∈ puts, (Spec.storedName p.1).length < 65536)
    (hfiles : ∀ p ∈ puts, ∀ f, saveToString cfg p.2.ops p.2.x e = .ok f → f.length ≤ 1048576) :
    ∃ w', Writer.close w = (.ok (), w') ∧
      ∀ s : IStream, s = IStream.ofBytes w'.str ∨ s = IStream.ofFile w'.str → ∃ r, Reader.open s = .ok r ∧
        ∀ (calls : List RdCall) (name : Bytes) (α : Type) (ops : ElemOps α),
          match Spec.lookup puts name with
          | some t =>
            (Reader.read cfg (miniz cfg j n) ops name (r.after cfg (miniz cfg j n) calls)).1 =
                (saveToString cfg t.ops t.x e).bind (loadFromString cfg ops) ∨
            (Reader.read cfg (miniz cfg j n) ops name (r.after cfg (miniz cfg j n) calls)).1 =
                .error (.throw (.runtimeError .inflateError))
          | none => (Reader.read cfg (miniz cfg j n) ops name (r.after cfg (miniz cfg j n) calls)).1 =
              .error (.throw (.invalidArgument .filename)) := by
  obtain ⟨big, nd, w16⟩ := cfg
  obtain rfl : big = false := hbig
  obtain ⟨w', c1, -, c3⟩ := writer_reads (newString_inv DEFLATED e) (show DEFLATED < 2 ^ 16 by decide) hw hlen hnames
  refine ⟨w', c1, ?_⟩
  intro s hs
  have hs' : s.Ready w'.str := by rcases hs with rfl | rfl; exacts [ready_ofBytes _, ready_ofFile _]
  obtain ⟨r, o1, -, o3⟩ := c3 s hs'
  refine ⟨r, o1, ?_⟩
  intro calls name α ops
  have h1 := (o3 calls name).1
  rw [Nat.mod_eq_of_lt (b := 2 ^ 16) hcount, List.take_length] at h1
  match hl : Spec.lookup puts name with
  | none =>
    rw [hl] at h1
    simp only [reader_read_eq, h1]
    rfl
  | some t =>
    obtain ⟨m, hm⟩ := lookup_mem hl
    rw [hl] at h1
    change _ = (saveToString ⟨false, nd, w16⟩ t.ops t.x e).bind (readBack (miniz ⟨false, nd, w16⟩ j n) DEFLATED) at h1
    simp only [reader_read_eq, h1]
    match hf : saveToString ⟨false, nd, w16⟩ t.ops t.x e with
    | .error er => exact .inl rfl
    | .ok f =>
      rcases miniz_readBack ⟨false, nd, w16⟩ j n hn rfl f (hfiles _ hm f hf) with h2 | h2
      · left; simp only [Except.bind, h2]
      · right; simp only [Except.bind, h2]

/-! ### An archive -/

theorem recBytes_length_le (i : FileEntry × Bytes) : (recBytes i).length ≤ 58 + i.1.filename.length + i.2.length := by
  have h32 : ∀ v, (write32 v).length = 4 := by
    intro v
    unfold write32 w32
    split <;> exact leBytes_length _ _
  have hz : (if determineExtraLength i.1 false > 0 then zip64Extra i.1 false else []).length ≤ 28 := by
    unfold zip64Extra
    split
    · simp only [w16, List.length_append, leBytes_length]
      have : ∀ l : List Nat, (l.flatMap w64).length = 8 * l.length := by
        intro l
        induction l with
        | nil => rfl
        | cons a l ih => rw [List.flatMap_cons, List.length_append, ih, w64, leBytes_length, List.length_cons]; omega
      rw [this]
      simp only [Bool.false_and, Bool.false_eq_true, if_false, List.append_nil, List.length_append]
      have h1 : ∀ (c : Prop) [Decidable c] (v : Nat), (if c then [v] else []).length ≤ 1 := by
        intro c _ v; split <;> simp
      have := h1 (i.1.uncompressedSize > ZIP64_LIMIT) i.1.uncompressedSize
      have := h1 (i.1.compressedSize > ZIP64_LIMIT) i.1.compressedSize
      omega
    · simp
  unfold recBytes localHeader sharedHeader
  simp only [List.length_append, w16, w32, leBytes_length, h32]
  have h1 : LOCAL_HEADER_SIG.length = 4 := rfl
  have h2 : TIME.length = 4 := rfl
  omega

/-- The size of an archive of compressed tensors. -/
theorem miniz_archive_size {cfg : Cfg} {j : Junk} {n : Nat} (hn : 2 ^ 36 ≤ n) (hbig : cfg.nativeBig = false) {e : Endian} {puts : List (Bytes × AnyTensor)}
    {w : Writer} (hw : Writer.writeAll cfg (miniz cfg j n) puts (Writer.newString DEFLATED e) = (.ok (), w)) {N B : Nat}
    (hB : B < 2 ^ 32) (hnames : ∀ p ∈ puts, (Spec.storedName p.1).length ≤ N)
    (hfiles : ∀ p ∈ puts, ∀ f, saveToString cfg p.2.ops p.2.x e = .ok f → f.length ≤ B) :
    w.str.length ≤ puts.length * (67 + N + 3 * B) := by
  obtain ⟨big, nd, w16⟩ := cfg
  obtain rfl : big = false := hbig
  obtain ⟨items, i1, -, i3⟩ := writeAll_inv (newString_inv DEFLATED e) hw
  rw [Writer.str, i1.buf, List.nil_append]
  clear i1 hw
  induction i3 with
  | nil => simp
  | @cons p item puts items h _ ih =>
    obtain ⟨f, hf, ho⟩ := h
    have h1 := ih (fun p hp => hnames p (by simp [hp])) (fun p hp => hfiles p (by simp [hp]))
    have h2 := recBytes_length_le item
    have h3 := hnames p (by simp)
    have h4 := hfiles p (by simp) f hf
    obtain ⟨d, d1, -, d3⟩ := ho.comp
    change compressWith (miniz ⟨false, nd, w16⟩ j n) DEFLATED f = .ok d at d1
    unfold compressWith at d1
    rw [if_neg (by decide), if_pos rfl] at d1
    have h5 := C58_size _ _ _ (by omega) _ (by omega) d d1
    have h6 : item.2.length ≤ d.length := by rw [d3, List.length_take]; omega
    rw [ho.filename] at h2
    rw [List.flatMap_cons, List.length_append, List.length_cons, Nat.succ_mul]
    omega

theorem exPuts_small : ∀ p ∈ exPuts, ∀ f, saveToString exCfg p.2.ops p.2.x .little = .ok f → f.length ≤ 200 := by
  intro p hp f hf
  simp only [exPuts, List.mem_cons, List.not_mem_nil, or_false] at hp
  have key : ∀ (r : Except Err Bytes), r = .ok f → r.toOption.getD [] = f := by rintro _ rfl; rfl
  rw [← key _ hf]
  rcases hp with rfl | rfl | rfl <;> decide +kernel

/-- Three writes, the third replacing the first, read back through a file. -/
example (j : Junk) : ∃ w w' r, Writer.writeAll exCfg (miniz exCfg j (2 ^ 36)) exPuts (Writer.newString DEFLATED .little) = (.ok (), w) ∧
    Writer.close w = (.ok (), w') ∧ Reader.open (IStream.ofFile w'.str) = .ok r ∧
    (Reader.read exCfg (miniz exCfg j (2 ^ 36)) wideOps b!"y" (r.after exCfg (miniz exCfg j (2 ^ 36))
      [.peek b!"nope", .read _ (fixedOps .int16) b!"x"])).1 = .ok exWide ∧
    (Reader.read exCfg (miniz exCfg j (2 ^ 36)) (fixedOps .float64) b!"x" r).1 = .ok exTensor2 := by
  obtain ⟨w, h1, h2⟩ := C31_npz_roundtrip exCfg j (2 ^ 36) le_rfl rfl .little exPuts exPuts_storable
    (fun p hp f hf => .inl ((exPuts_small p hp f hf).trans (by norm_num)))
  have hsz := miniz_archive_size (N := 10) (B := 200) le_rfl rfl h1 (by norm_num) (by decide) exPuts_small
  have h3 : exPuts.length = 3 := rfl
  obtain ⟨w', h3, h4⟩ := h2 (by rw [h3] at hsz; omega) (by decide) (by decide)
  obtain ⟨r, h5, h6⟩ := h4 _ (.inr rfl)
  exact ⟨w, w', r, h1, h3, h5, h6 _ b!"y" ⟨WStr, wideOps, exWide⟩ rfl, h6 [] b!"x" ⟨Elem, fixedOps .float64, exTensor2⟩ rfl⟩

example (j : Junk) : ∃ w w' r, Writer.writeAll exCfg (miniz exCfg j (2 ^ 36)) exPuts (Writer.newString DEFLATED .little) = (.ok (), w) ∧
    Writer.close w = (.ok (), w') ∧ Reader.open (IStream.ofBytes w'.str) = .ok r ∧
    (Reader.read exCfg (miniz exCfg j (2 ^ 36)) wideOps b!"z" r).1 = .error (.throw (.invalidArgument .filename)) := by
  obtain ⟨w, h1, -⟩ := C31_npz_roundtrip exCfg j (2 ^ 36) le_rfl rfl .little exPuts exPuts_storable
    (fun p hp f hf => .inl ((exPuts_small p hp f hf).trans (by norm_num)))
  have hsz := miniz_archive_size (N := 10) (B := 200) le_rfl rfl h1 (by norm_num) (by decide) exPuts_small
  have h3 : exPuts.length = 3 := rfl
  obtain ⟨w', h3, h4⟩ := C31_never_wrong exCfg j (2 ^ 36) le_rfl rfl .little exPuts w h1 (by rw [h3] at hsz; omega) (by decide) (by decide)
    (fun p hp f hf => (exPuts_small p hp f hf).trans (by norm_num))
  obtain ⟨r, h5, h6⟩ := h4 _ (.inl rfl)
  exact ⟨w, w', r, h1, h3, h5, h6 [] b!"z" _ wideOps⟩

/-! ### C59: compression is reproducible -/

/-- **C59**. What compressing an input under 4 GiB gives is determined by the input: it does not depend on what the memory of the
compressor held, on whether asserts are checked, or on the number of rounds the loops may take. -/
theorem C59_deterministic (dbg dbg' : Bool) (j j' : Junk) (b : Bytes) (hb : b.length < 2 ^ 32) (fuel fuel' : Nat)
    (hf : b.length + 260 ≤ fuel) (hf' : b.length + 260 ≤ fuel') : npyDeflate false dbg j fuel b = npyDeflate false dbg' j' fuel' b :=
  npyDeflate_same dbg dbg' j j' fuel fuel' b hb hf hf'

/-- Memory of zeros and memory of ones. -/
example : npyDeflate false true ⟨fun _ => 255, fun _ => 65535, 255⟩ 2000000 (List.replicate 1000000 65) =
    npyDeflate false false ⟨fun _ => 0, fun _ => 0, 0⟩ 3000000 (List.replicate 1000000 65) :=
  C59_deterministic _ _ _ _ _ (by rw [List.length_replicate]; norm_num) _ _ (by rw [List.length_replicate]; norm_num)
    (by rw [List.length_replicate]; norm_num)

/-- A write of the same tensor has the same outcome and effect. -/
theorem wrCall_same (cfg cfg₁ cfg₂ : Cfg) (j j' : Junk) (n n' : Nat) (hn : 2 ^ 36 ≤ n) (hn' : 2 ^ 36 ≤ n') (w : Writer) (c : WrCall)
    (hle₁ : w.method = DEFLATED → cfg₁.nativeBig = false) (hle₂ : w.method = DEFLATED → cfg₂.nativeBig = false)
    (hc : ∀ t name, c = .write t name → ∀ f, saveToString cfg t.ops t.x w.endianness = .ok f → f.length < 2 ^ 32) :
    c.run cfg (miniz cfg₁ j n) w = c.run cfg (miniz cfg₂ j' n') w := by
  cases c with
  | close => rfl
  | write t name =>
    show Writer.write _ _ _ _ _ _ = Writer.write _ _ _ _ _ _
    unfold Writer.write
    by_cases hcl : w.closed = true
    · simp only [if_pos hcl]
    · simp only [if_neg hcl]
      match hs : save cfg t.ops t.x w.endianness OStream.empty with
      | .error e => rfl
      | .ok out =>
        have hlen : out.buf.length < 2 ^ 32 := hc t name rfl _ (by unfold saveToString; rw [hs]; rfl)
        by_cases h2 : w.method = DEFLATED
        · have hd : (miniz cfg₁ j n).deflate out.buf = (miniz cfg₂ j' n').deflate out.buf := by
            simp only [miniz, hle₁ h2, hle₂ h2]
            exact npyDeflate_same _ _ _ _ _ _ _ hlen (by omega) (by omega)
          simp only [Writer.writeFile, Npy.writeFile, hd]
        · simp only [Writer.writeFile, Npy.writeFile, if_neg h2]

/-- A call keeps the writer's endianness. -/
theorem wrCall_endian (cfg : Cfg) (codec : Codec) (w : Writer) (c : WrCall) : (c.run cfg codec w).2.endianness = w.endianness := by
  cases c with
  | close =>
    show (Writer.close w).2.endianness = _
    unfold Writer.close
    dsimp only
    split <;> rfl
  | write t name =>
    show (Writer.write _ _ _ _ _ _).2.endianness = _
    unfold Writer.write
    dsimp only
    split
    · rfl
    · split
      · rfl
      · unfold Writer.writeFile
        dsimp only
        split
        · rfl
        · split <;> rfl

/-- A call keeps the writer's method. -/
theorem wrCall_method (cfg : Cfg) (codec : Codec) (w : Writer) (c : WrCall) : (c.run cfg codec w).2.method = w.method := by
  cases c with
  | close =>
    show (Writer.close w).2.method = _
    unfold Writer.close
    dsimp only
    split <;> rfl
  | write t name =>
    show (Writer.write _ _ _ _ _ _).2.method = _
    unfold Writer.write
    dsimp only
    split
    · rfl
    · split
      · rfl
      · unfold Writer.writeFile
        dsimp only
        split
        · rfl
        · split <;> rfl

/-- **C59**, archives. The same calls on the same writer (any method, any state) have the same outcomes and leave the same bytes,
whatever the compressor's memory holds and whether or not its asserts are checked; if every NPY file is under 4 GiB. -/
theorem C59_archive (cfg cfg₁ cfg₂ : Cfg) (j j' : Junk) (n n' : Nat) (hn : 2 ^ 36 ≤ n) (hn' : 2 ^ 36 ≤ n') (calls : List WrCall)
    (w : Writer) (hle₁ : w.method = DEFLATED → cfg₁.nativeBig = false) (hle₂ : w.method = DEFLATED → cfg₂.nativeBig = false)
    (hfiles : ∀ t name, .write t name ∈ calls → ∀ f, saveToString cfg t.ops t.x w.endianness = .ok f → f.length < 2 ^ 32) :
    Writer.trace cfg (miniz cfg₁ j n) w calls = Writer.trace cfg (miniz cfg₂ j' n') w calls ∧
      (w.after cfg (miniz cfg₁ j n) calls).str = (w.after cfg (miniz cfg₂ j' n') calls).str := by
  suffices h : Writer.trace cfg (miniz cfg₁ j n) w calls = Writer.trace cfg (miniz cfg₂ j' n') w calls ∧
      w.after cfg (miniz cfg₁ j n) calls = w.after cfg (miniz cfg₂ j' n') calls from ⟨h.1, congrArg _ h.2⟩
  induction calls generalizing w with
  | nil => exact ⟨rfl, rfl⟩
  | cons c calls ih =>
    have h1 := wrCall_same cfg cfg₁ cfg₂ j j' n n' hn hn' w c hle₁ hle₂
      (fun t name h => hfiles t name (by rw [h]; exact List.mem_cons_self))
    have h2 := ih (c.run cfg (miniz cfg₁ j n) w).2 (by rw [wrCall_method]; exact hle₁) (by rw [wrCall_method]; exact hle₂) (fun t name h => by
      rw [wrCall_endian]
      exact hfiles t name (List.mem_cons_of_mem _ h))
    unfold Writer.trace Writer.after
    rw [List.foldl_cons, List.foldl_cons, ← h1]
    exact ⟨by rw [h2.1], h2.2⟩

/-- Two runs of the same program write the same archive. -/
example (j j' : Junk) : ((Writer.newString DEFLATED .little).after exCfg (miniz exCfg j (2 ^ 36))
      [.write ⟨WStr, wideOps, exWide⟩ b!"y", .write ⟨Elem, fixedOps .float64, exTensor2⟩ b!"x", .close]).str =
    ((Writer.newString DEFLATED .little).after exCfg (miniz exCfg j' (2 ^ 36))
      [.write ⟨WStr, wideOps, exWide⟩ b!"y", .write ⟨Elem, fixedOps .float64, exTensor2⟩ b!"x", .close]).str := by
  refine (C59_archive exCfg exCfg exCfg j j' (2 ^ 36) (2 ^ 36) le_rfl le_rfl _ _ (fun _ => rfl) (fun _ => rfl) ?_).2
  intro t name ht f hf
  have key : ∀ (r : Except Err Bytes), r = .ok f → r.toOption.getD [] = f := by rintro _ rfl; rfl
  rw [← key _ hf]
  simp only [List.mem_cons, List.not_mem_nil, or_false, reduceCtorEq, WrCall.write.injEq] at ht
  rcases ht with ⟨rfl, -⟩ | ⟨rfl, -⟩ <;> decide +kernel

end Npy
