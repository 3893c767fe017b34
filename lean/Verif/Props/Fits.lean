import Verif.Spec.Fits
import Verif.Props.Program
/-!
# C30 and C54 with limits on what is written only

In `C30_npz_roundtrip` and `C54_path_roundtrip` the archive has to be shorter than 4 GiB. Here that is replaced by a limit
on the sum of the names and data.
-/

namespace Npy
open Spec

theorem storedName_length_le (name : Bytes) : (storedName name).length ≤ name.length + 4 := by
  unfold storedName
  split
  · omega
  · simp

theorem storable_length {cfg : Cfg} {e : Endian} {t : AnyTensor} (h : Storable cfg e t) {n : Nat} (hn : DataBytes t n) {f : Bytes}
    (hf : saveToString cfg t.ops t.x e = .ok f) : f.length ≤ 256 + n ∧ n ≤ f.length := by
  cases h with
  | fixed dt ht x hx hv hlen =>
    rw [saveToString_fixed ht hv e] at hf
    cases hf
    obtain rfl : n = x.values.length * itemSize dt := by cases hn; rfl
    rw [← dictionaryText_eq_spec, ← paddedDictLength_lt_256] at hlen
    have hd : (x.values.flatMap (fixedBytes cfg dt e)).length = x.values.length * itemSize dt := by
      rw [itemSize_eq dt ht]
      exact flatMap_length _ _ _ fun w hw => fixedBytes_length ((validElem_iff dt ht w).2 (hv w hw))
    have hm := paddedDictLength_mod (dictionaryText (descr dt (isBig cfg e)) x.fortranOrder x.shape).length
    rw [savedFixed, List.length_append, hd, headerBytes_length]
    rw [STATIC_HEADER_LENGTH] at *
    omega
  | wide x hx hw h0 hmax hlen =>
    rw [saveToString_wide x e] at hf
    cases hf
    obtain rfl : n = x.values.length * (4 * longest x.values) := by cases hn; rfl
    rw [← dictionaryText_eq_spec, ← paddedDictLength_lt_256, ← maxLength_eq] at hlen
    have hd : (x.values.flatMap (wideBytes cfg e (maxLength x.values))).length = x.values.length * (4 * Spec.longest x.values) := by
      rw [← maxLength_eq, Nat.mul_comm 4]
      exact flatMap_length _ _ _ fun v hx => wideBytes_length cfg e (le_maxLength hx)
    have hm := paddedDictLength_mod (dictionaryText (descrU (maxLength x.values) (isBig cfg e)) x.fortranOrder x.shape).length
    rw [savedWide, List.length_append, hd, headerBytes_length]
    rw [STATIC_HEADER_LENGTH] at *
    omega

theorem archive_fits {cfg : Cfg} {codec : Codec} {e : Endian} {puts : List (Bytes × AnyTensor)}
    (hok : ∀ p ∈ puts, Storable cfg e p.2) {size : Bytes × AnyTensor → Nat}
    (hsize : ∀ p ∈ puts, ∃ n ≤ size p, DataBytes p.2 n) {w : Writer}
    (hw : Writer.writeAll cfg codec puts (Writer.newString STORED e) = (.ok (), w)) :
    w.str.length ≤ (puts.map fun p => 310 + p.1.length + size p).sum := by
  have h1 := archive_length (newString_inv STORED e) hw (fun p => 256 + size p) (by
    intro p hp f d hf hd
    obtain ⟨n, hn, hb⟩ := hsize p hp
    have h2 := Nat.le_trans (storable_length (hok p hp) hb hf).1 (Nat.add_le_add_left hn 256)
    have : d = f := by
      have : compressWith codec STORED f = .ok f := rfl
      rw [show (Writer.newString STORED e).method = STORED from rfl, this] at hd
      exact (Except.ok.inj hd).symm
    rw [this]
    exact h2)
  refine Nat.le_trans h1 (List.sum_le_sum fun p _ => ?_)
  have := storedName_length_le p.1
  omega

theorem le_sum_of_mem' {α : Type _} {l : List α} {f : α → Nat} {a : α} (h : a ∈ l) : f a ≤ (l.map f).sum :=
  List.single_le_sum (fun _ _ => Nat.zero_le _) _ (List.mem_map_of_mem h)

/-- **C30**, by the sizes of what is written: fewer than 65536 tensors that NPY files can hold, under names of fewer than
65532 bytes, such that the lengths of the names and the data, plus 310 for each tensor, add up to less than 4 GiB. Then
everything succeeds, and every name gives back exactly the tensor most recently written under it. -/
theorem C30_by_size (cfg : Cfg) (codec : Codec) (e : Endian) (puts : List (Bytes × AnyTensor))
    (hok : ∀ p ∈ puts, Storable cfg e p.2) (hcount : puts.length < 65536) (hnames : ∀ p ∈ puts, p.1.length < 65532)
    (size : Bytes × AnyTensor → Nat) (hsize : ∀ p ∈ puts, ∃ n ≤ size p, DataBytes p.2 n)
    (htotal : (puts.map fun p => 310 + p.1.length + size p).sum < 2 ^ 32) :
    ∃ w w', Writer.writeAll cfg codec puts (Writer.newString STORED e) = (.ok (), w) ∧ Writer.close w = (.ok (), w') ∧
      ∀ s : IStream, s = IStream.ofBytes w'.str ∨ s = IStream.ofFile w'.str → ∃ r, Reader.open s = .ok r ∧
        ∀ (calls : List RdCall) (name : Bytes),
          (∀ t : AnyTensor, lookup puts name = some t →
            (Reader.read cfg codec t.ops name (r.after cfg codec calls)).1 = .ok t.x) ∧
          (lookup puts name = none → ∀ (α : Type) (ops : ElemOps α),
            (Reader.read cfg codec ops name (r.after cfg codec calls)).1 = .error (.throw (.invalidArgument .filename))) := by
  obtain ⟨w, h1, h2⟩ := C30_npz_roundtrip cfg codec e puts hok
  have hlen := Nat.lt_of_le_of_lt (archive_fits hok hsize h1) htotal
  have hn : ∀ p ∈ puts, (storedName p.1).length < 65536 := fun p hp => by
    have := storedName_length_le p.1
    have := hnames p hp
    omega
  have hf : ∀ p ∈ puts, ∀ f, saveToString cfg p.2.ops p.2.x e = .ok f → f.length < 2 ^ 32 := by
    intro p hp f hf
    obtain ⟨n, hn, hb⟩ := hsize p hp
    have h3 := (storable_length (hok p hp) hb hf).1
    have h4 := le_sum_of_mem' (f := fun p : Bytes × AnyTensor => 310 + p.1.length + size p) hp
    omega
  obtain ⟨w', c1, c2⟩ := h2 hlen hcount hn hf
  refine ⟨w, w', h1, c1, fun s hs => ?_⟩
  obtain ⟨r, o1, o2⟩ := c2 s hs
  refine ⟨r, o1, fun calls name => ⟨fun t ht => o2 calls name t ht, fun hl α ops => ?_⟩⟩
  obtain ⟨w2, d1, d2⟩ := C30_npz_map cfg codec e puts w h1 hlen hcount hn hf
  obtain rfl : w2 = w' := by rw [c1] at d1; exact (Prod.mk.inj d1).2.symm
  obtain ⟨r2, o3, o4⟩ := d2 s hs
  obtain rfl : r2 = r := by rw [o1] at o3; exact (Except.ok.inj o3).symm
  rw [o4 calls name α ops, hl]

/-- **C54**, by the sizes of what is written: the same for archives on paths. -/
theorem C54_by_size (cfg : Cfg) (codec : Codec) (e : Endian) (puts : List (Bytes × AnyTensor))
    (hok : ∀ p ∈ puts, Storable cfg e p.2) (fs : Fs) (path : Bytes)
    (hw : fs.writable path = true) (hr : fs.readable path = true) (hroom : fs.room = none)
    (hcount : puts.length < 65536) (hnames : ∀ p ∈ puts, p.1.length < 65532)
    (size : Bytes × AnyTensor → Nat) (hsize : ∀ p ∈ puts, ∃ n ≤ size p, DataBytes p.2 n)
    (htotal : (puts.map fun p => 310 + p.1.length + size p).sum < 2 ^ 32) :
    ∃ outcomes fs', npzWriteScope cfg codec STORED e path (puts.map fun p => .write p.2 p.1) fs = (.ok outcomes, fs') ∧
      (∀ r ∈ outcomes, r = .ok ()) ∧ (∀ q, q ≠ path → fs'.file q = fs.file q) ∧
      ∃ r, npzReadPath path fs' = (.ok r, fs') ∧
        ∀ (calls : List RdCall) (name : Bytes) (t : AnyTensor), lookup puts name = some t →
          (Reader.read cfg codec t.ops name (r.after cfg codec calls)).1 = .ok t.x := by
  obtain ⟨w, h1, -⟩ := C30_npz_roundtrip cfg codec e puts hok
  refine C54_path_roundtrip cfg codec e puts hok fs path hw hr hroom hcount ?_ ?_ ?_
  · intro p hp
    have := storedName_length_le p.1
    have := hnames p hp
    omega
  · intro p hp f hf
    obtain ⟨n, hn, hb⟩ := hsize p hp
    have h3 := (storable_length (hok p hp) hb hf).1
    have h4 := le_sum_of_mem' (f := fun p : Bytes × AnyTensor => 310 + p.1.length + size p) hp
    omega
  · rw [h1]
    exact Nat.lt_of_le_of_lt (archive_fits hok hsize h1) htotal

theorem deflated_fits {cfg : Cfg} (hbig : cfg.nativeBig = false) {j : Junk} {n : Nat} (hn : 2 ^ 36 ≤ n) {e : Endian} {puts : List (Bytes × AnyTensor)}
    (hok : ∀ p ∈ puts, Storable cfg e p.2) {size : Bytes × AnyTensor → Nat} (hsmall : ∀ p ∈ puts, size p ≤ 32512)
    (hsize : ∀ p ∈ puts, ∃ n ≤ size p, DataBytes p.2 n) {w : Writer}
    (hw : Writer.writeAll cfg (miniz cfg j n) puts (Writer.newString DEFLATED e) = (.ok (), w)) :
    w.str.length ≤ (puts.map fun p => 831 + p.1.length + 3 * size p).sum := by
  have h1 := archive_length (newString_inv DEFLATED e) hw (fun p => 3 * (256 + size p) + 9) (by
    intro p hp f d hf hd
    obtain ⟨m, hm, hb⟩ := hsize p hp
    have h2 := (storable_length (hok p hp) hb hf).1
    have hs := hsmall p hp
    have hd' : npyDeflate cfg.nativeBig (!cfg.ndebug) j n f = .ok d := hd
    rw [hbig] at hd'
    have := C58_size _ j f (by omega) n (by omega) d hd'
    show d.length ≤ 3 * (256 + size p) + 9
    omega)
  refine Nat.le_trans h1 (List.sum_le_sum fun p _ => ?_)
  have := storedName_length_le p.1
  omega

/-- **C31**, by the sizes of what is written: as `C30_by_size` for DEFLATED archives, for tensors with up to 32512 bytes of data
each. -/
theorem C31_by_size (cfg : Cfg) (j : Junk) (n : Nat) (hn : 2 ^ 36 ≤ n) (hbig : cfg.nativeBig = false) (e : Endian)
    (puts : List (Bytes × AnyTensor))
    (hok : ∀ p ∈ puts, Storable cfg e p.2) (hcount : puts.length < 65536) (hnames : ∀ p ∈ puts, p.1.length < 65532)
    (size : Bytes × AnyTensor → Nat) (hsmall : ∀ p ∈ puts, size p ≤ 32512)
    (hsize : ∀ p ∈ puts, ∃ n ≤ size p, DataBytes p.2 n)
    (htotal : (puts.map fun p => 831 + p.1.length + 3 * size p).sum < 2 ^ 32) :
    ∃ w w', Writer.writeAll cfg (miniz cfg j n) puts (Writer.newString DEFLATED e) = (.ok (), w) ∧ Writer.close w = (.ok (), w') ∧
      ∀ s : IStream, s = IStream.ofBytes w'.str ∨ s = IStream.ofFile w'.str → ∃ r, Reader.open s = .ok r ∧
        ∀ (calls : List RdCall) (name : Bytes),
          (∀ t : AnyTensor, lookup puts name = some t →
            (Reader.read cfg (miniz cfg j n) t.ops name (r.after cfg (miniz cfg j n) calls)).1 = .ok t.x) ∧
          (lookup puts name = none → ∀ (α : Type) (ops : ElemOps α),
            (Reader.read cfg (miniz cfg j n) ops name (r.after cfg (miniz cfg j n) calls)).1 =
              .error (.throw (.invalidArgument .filename))) := by
  have hsafe : ∀ p ∈ puts, ∀ f, saveToString cfg p.2.ops p.2.x e = .ok f → Spec.Deflate.SafeSize f.length := by
    intro p hp f hf
    obtain ⟨m, hm, hb⟩ := hsize p hp
    have h3 := (storable_length (hok p hp) hb hf).1
    have := hsmall p hp
    exact .inl (by omega)
  obtain ⟨w, h1, h2⟩ := C31_npz_roundtrip cfg j n hn hbig e puts hok hsafe
  have hlen := Nat.lt_of_le_of_lt (deflated_fits hbig hn hok hsmall hsize h1) htotal
  have hN : ∀ p ∈ puts, (storedName p.1).length < 65536 := fun p hp => by
    have := storedName_length_le p.1
    have := hnames p hp
    omega
  obtain ⟨w', c1, c2⟩ := h2 hlen hcount hN
  obtain ⟨w2, d1, d2⟩ := C31_npz_map cfg j n hn hbig e puts w h1 hlen hcount hN hsafe
  obtain rfl : w2 = w' := by rw [c1] at d1; exact (Prod.mk.inj d1).2.symm
  generalize miniz cfg j n = codec at *
  refine ⟨w, w2, h1, c1, fun s hs => ?_⟩
  obtain ⟨r, o1, o2⟩ := c2 s hs
  refine ⟨r, o1, fun calls name => ⟨fun t ht => o2 calls name t ht, fun hl α ops => ?_⟩⟩
  obtain ⟨r2, o3, o4⟩ := d2 s hs
  obtain rfl : r2 = r := by rw [o1] at o3; exact (Except.ok.inj o3).symm
  rw [o4 calls name α ops, hl]

/-- Three tensors; none has more than 100 bytes of data. -/
theorem exPuts_size : ∀ p ∈ exPuts, ∃ n ≤ 100, DataBytes p.2 n := by
  intro p hp
  simp only [exPuts, List.mem_cons, List.not_mem_nil, or_false] at hp
  rcases hp with rfl | rfl | rfl
  · exact ⟨_, by decide, .fixed _ _⟩
  · exact ⟨_, by decide, .wide _⟩
  · exact ⟨_, by decide, .fixed _ _⟩

example : ∃ w w' r, Writer.writeAll exCfg noCodec exPuts (Writer.newString STORED .little) = (.ok (), w) ∧
    Writer.close w = (.ok (), w') ∧ Reader.open (IStream.ofBytes w'.str) = .ok r ∧
    (Reader.read exCfg noCodec wideOps b!"y" r).1 = .ok exWide := by
  obtain ⟨w, w', h1, h2, h3⟩ := C30_by_size exCfg noCodec .little exPuts exPuts_storable (by decide) (by decide) (fun _ => 100)
    exPuts_size (by decide)
  obtain ⟨r, h4, h5⟩ := h3 _ (.inl rfl)
  exact ⟨w, w', r, h1, h2, h4, (h5 [] b!"y").1 ⟨WStr, wideOps, exWide⟩ rfl⟩

example : ∃ outcomes fs' r, npzWriteScope exCfg noCodec STORED .little b!"/a" (exPuts.map fun p => .write p.2 p.1) exFs = (.ok outcomes, fs') ∧
    npzReadPath b!"/a" fs' = (.ok r, fs') ∧ (Reader.read exCfg noCodec wideOps b!"y" r).1 = .ok exWide := by
  obtain ⟨o, fs', h1, -, -, r, h2, h3⟩ := C54_by_size exCfg noCodec .little exPuts exPuts_storable exFs b!"/a" rfl rfl rfl (by decide)
    (by decide) (fun _ => 100) exPuts_size (by decide)
  exact ⟨o, fs', r, h1, h2, h3 [] b!"y" ⟨WStr, wideOps, exWide⟩ rfl⟩

example (j : Junk) : ∃ w w' r, Writer.writeAll exCfg (miniz exCfg j (2 ^ 37)) exPuts (Writer.newString DEFLATED .little) = (.ok (), w) ∧
    Writer.close w = (.ok (), w') ∧ Reader.open (IStream.ofBytes w'.str) = .ok r ∧
    (Reader.read exCfg (miniz exCfg j (2 ^ 37)) wideOps b!"y" r).1 = .ok exWide := by
  obtain ⟨w, w', h1, h2, h3⟩ := C31_by_size exCfg j (2 ^ 37) (by norm_num) rfl .little exPuts exPuts_storable (by decide) (by decide)
    (fun _ => 100) (by intro _ _; decide) exPuts_size (by decide)
  generalize miniz exCfg j (2 ^ 37) = codec at *
  obtain ⟨r, h4, h5⟩ := h3 _ (.inl rfl)
  exact ⟨w, w', r, h1, h2, h4, (h5 [] b!"y").1 ⟨WStr, wideOps, exWide⟩ rfl⟩

end Npy
