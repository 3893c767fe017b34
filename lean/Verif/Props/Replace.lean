import Verif.Props.Damage
import Verif.Props.Inflate
import Verif.Props.Deflate
/-!
# Archives whose data were replaced (C64)
-/

namespace Npy
open Spec (storedName)

theorem findName_suffixed {vis : List (FileEntry × Bytes)} (hnm : ∀ j ∈ vis, b!".npy" <:+ j.1.filename) {n : Bytes}
    {i : FileEntry × Bytes} (hfi : findItem vis (storedName n) = some i) : findName vis n = some i := by
  unfold findName
  by_cases hsuf : b!".npy" <:+ n
  · have : storedName n = n := by unfold storedName; rw [if_pos hsuf]
    rw [this] at hfi
    rw [hfi]
  · have : storedName n = n ++ b!".npy" := by unfold storedName; rw [if_neg hsuf]
    rw [this] at hfi
    have hnone : findItem vis n = none := by
      refine List.find?_eq_none.2 fun j hj => ?_
      intro hjn
      have hjn : j.1.filename = n := by simpa using hjn
      exact hsuf (hjn ▸ hnm j (List.mem_reverse.1 hj))
    rw [hnone, hfi]

/-- What reading an entry gives when the data `d` stand in the archive under its header: they are unpacked, their checksum
is compared with that of `f`, and the NPY file they hold is loaded. -/
structure ReadsAs (cfg : Cfg) (codec : Codec) (deflated : Bool) (f d name : Bytes) (r : Reader) : Prop where
  /-- an exception of the decompressor goes to the caller -/
  fails : ∀ err, deflated = true → codec.inflate d = .error err →
    (∀ (α : Type) (ops : ElemOps α), (Reader.read cfg codec ops name r).1 = .error err) ∧
      (Reader.peek cfg codec name r).1 = .error err
  /-- unpacked data with another CRC-32 are refused -/
  differs : ∀ g, (if deflated then codec.inflate d else .ok d) = .ok g → g.length < 2 ^ 32 → Spec.crc32 g ≠ Spec.crc32 f →
    (∀ (α : Type) (ops : ElemOps α), (Reader.read cfg codec ops name r).1 = .error (.throw (.runtimeError .crcMismatch))) ∧
      (Reader.peek cfg codec name r).1 = .error (.throw (.runtimeError .crcMismatch))
  /-- data with the same CRC-32 are taken for what was written -/
  agrees : ∀ g, (if deflated then codec.inflate d else .ok d) = .ok g → g.length < 2 ^ 32 → Spec.crc32 g = Spec.crc32 f →
    (∀ (α : Type) (ops : ElemOps α), (Reader.read cfg codec ops name r).1 = loadFromString cfg ops g) ∧
      (Reader.peek cfg codec name r).1 = peekString cfg g

theorem readsAs {cfg : Cfg} {codec : Codec} {deflated : Bool} {f d name : Bytes} {r : Reader} (hf : f.length < 2 ^ 32)
    (h : (Reader.readFile codec name r).1 = finish codec (if deflated then DEFLATED else STORED) (npyCrc32 f) d) :
    ReadsAs cfg codec deflated f d name r := by
  have hd : decompressWith codec (if deflated then DEFLATED else STORED) d = (if deflated then codec.inflate d else .ok d) := by
    cases deflated <;> rfl
  have key : ∀ x, (Reader.readFile codec name r).1 = .error x →
      (∀ (α : Type) (ops : ElemOps α), (Reader.read cfg codec ops name r).1 = .error x) ∧
      (Reader.peek cfg codec name r).1 = .error x :=
    fun x hx => ⟨fun α ops => by rw [reader_read_eq, hx]; rfl, by rw [reader_peek_eq, hx]; rfl⟩
  unfold finish at h
  rw [hd] at h
  refine ⟨fun err h1 h2 => key _ ?_, fun g h1 h2 h3 => key _ ?_, fun g h1 h2 h3 => ?_⟩
  · rw [h, h1]; simp only [if_true]; rw [h2]
  · rw [h, h1]; simp only []; rw [if_pos (by rw [C41_crc32 _ h2, C41_crc32 _ hf]; exact h3)]
  · rw [h1] at h; simp only [] at h
    rw [if_neg (by rw [C41_crc32 _ h2, C41_crc32 _ hf]; exact fun h => h h3)] at h
    exact ⟨fun α ops => by rw [reader_read_eq, h]; rfl, by rw [reader_peek_eq, h]; rfl⟩

/-- **C64**. Take an archive made by any sequence of writes with either method, and in it an entry (the last one written
under its name), its NPY file `f` and the data `d` that are stored for it: `f` itself or what the compressor made of it.
The archive is `P ++ d ++ Q`. Put any data `d'` of the same length in their place: the archive opens; the entry reads, after
any calls, as `ReadsAs` says: nothing but data with the CRC-32 of `f` is returned; and every other name reads as in the
undamaged archive. -/
theorem C64_replaced (cfg : Cfg) (codec : Codec) (e : Endian) (deflated : Bool) (before rest : List (Bytes × AnyTensor))
    (n : Bytes) (t : AnyTensor) (w₁ w : Writer)
    (h₁ : Writer.writeAll cfg codec before (Writer.newString (if deflated then DEFLATED else STORED) e) = (.ok (), w₁))
    (hw : Writer.writeAll cfg codec ((n, t) :: rest) w₁ = (.ok (), w))
    (hlen : w.str.length < 2 ^ 32) (hcount : (before ++ (n, t) :: rest).length < 65536)
    (hnames : ∀ p ∈ before ++ (n, t) :: rest, (storedName p.1).length < 65536)
    (hfile : ∀ f, saveToString cfg t.ops t.x e = .ok f → f.length < 2 ^ 32)
    (hlast : ∀ p ∈ rest, storedName p.1 ≠ storedName n) :
    ∃ w' f d P Q, saveToString cfg t.ops t.x e = .ok f ∧ Writer.close w = (.ok (), w') ∧ w'.str = P ++ d ++ Q ∧
      (deflated = false → d = f) ∧
      (deflated = true → ∃ z, codec.deflate f = .ok z ∧ d = z.take (z.length % 2 ^ 32)) ∧
      ∀ d' : Bytes, d'.length = d.length → ∀ s : IStream, s = IStream.ofBytes (P ++ d' ++ Q) ∨ s = IStream.ofFile (P ++ d' ++ Q) →
        ∃ r r₀, Reader.open s = .ok r ∧ Reader.open (IStream.ofBytes w'.str) = .ok r₀ ∧ ∀ (calls : List RdCall),
          (∀ name, storedName name = storedName n → ReadsAs cfg codec deflated f d' name (r.after cfg codec calls)) ∧
          ∀ name, name ≠ storedName n → name ++ b!".npy" ≠ storedName n →
            (∀ (α : Type) (ops : ElemOps α), (Reader.read cfg codec ops name (r.after cfg codec calls)).1 =
              (Reader.read cfg codec ops name r₀).1) ∧
            (Reader.peek cfg codec name (r.after cfg codec calls)).1 = (Reader.peek cfg codec name r₀).1 := by
  obtain ⟨m, hm⟩ : ∃ m, m = if deflated then DEFLATED else STORED := ⟨_, rfl⟩
  rw [← hm] at h₁
  have hm16 : m < 2 ^ 16 := by rw [hm]; cases deflated <;> decide
  obtain ⟨ia, i1, i2, i3⟩ := writeAll_inv (newString_inv m e) h₁
  rw [List.nil_append] at i1
  have hmeth : w₁.method = m := by rw [i2]; rfl
  have hend : w₁.endianness = e := by rw [i2]; rfl
  have hw0 := hw
  rw [Writer.writeAll] at hw0
  obtain ⟨⟨⟩, w2, k1, k2⟩ := SM.of_bind_ok hw0
  obtain ⟨item, f, e1, e2, e3, e4⟩ := write_inv i1 k1
  obtain ⟨ic, g1, g2, g3⟩ := writeAll_inv e3 k2
  have hm2 : w2.method = m := by rw [e4]; exact hmeth
  have he2 : w2.endianness = e := by rw [e4]; exact hend
  rw [hmeth] at e2
  rw [hend] at e1
  rw [hm2, he2] at g3
  rw [List.append_assoc, List.singleton_append] at g1
  have hall : List.Forall₂ (WroteAs cfg codec m e) (before ++ (n, t) :: rest) (ia ++ item :: ic) :=
    List.rel_append i3 (.cons ⟨f, e1, e2⟩ g3)
  obtain ⟨w', c1, c2, c3, -⟩ := close_arch g1 hm16 hall hlen hnames
  have hil : (ia ++ item :: ic).length < 65536 := by rw [← hall.length_eq]; exact hcount
  obtain ⟨P, Q, p1, p2, p3⟩ := c3.replace
  have hf32 : f.length < 2 ^ 32 := hfile f e1
  obtain ⟨z, d1, d2, d3⟩ := e2.comp
  refine ⟨w', f, item.2, P, Q, e1, c1, p1, ?_, ?_, ?_⟩
  · intro hd
    rw [hm, hd] at d1
    simp only [compressWith, Bool.false_eq_true, if_false, if_true, Except.ok.injEq] at d1
    rw [d3, ← d1, Nat.mod_eq_of_lt hf32, List.take_length]
  · intro hd
    rw [hm, hd] at d1
    exact ⟨z, d1, d3⟩
  · intro d' hl s hs
    have ha := p3 d' hl
    obtain ⟨vis, hvis⟩ : ∃ v, v = ia ++ (item.1, d') :: ic := ⟨_, rfl⟩
    have hvl : vis.length % 2 ^ 16 = vis.length := by
      refine Nat.mod_eq_of_lt ?_
      rw [hvis]; simpa using hil
    rw [← hvis, hvl, List.take_length] at ha
    have hready : s.Ready (P ++ d' ++ Q) := by
      rcases hs with rfl | rfl
      · exact ready_ofBytes _
      · exact ready_ofFile _
    have ha0 := c3
    rw [Nat.mod_eq_of_lt (b := 2 ^ 16) hil, List.take_length] at ha0
    obtain ⟨r, o1, o2⟩ := arch_open ha hready
    obtain ⟨r₀, o3, o4⟩ := arch_open ha0 (ready_ofBytes _)
    refine ⟨r, r₀, o1, o3, fun calls => ?_⟩
    have hr := after_inv ha cfg codec o2 calls
    have hicn : ∀ j ∈ ic, j.1.filename ≠ item.1.filename := by
      intro j hj
      obtain ⟨p, hp, f2, -, ho⟩ := forall₂_mem_right g3 hj
      rw [ho.filename, e2.filename]
      exact hlast p hp
    have hnm : ∀ j ∈ vis, b!".npy" <:+ j.1.filename := by
      intro j hj
      have : ∃ j' ∈ ia ++ item :: ic, j'.1.filename = j.1.filename := by
        rw [hvis] at hj
        simp only [List.mem_append, List.mem_cons] at hj ⊢
        rcases hj with hj | rfl | hj
        · exact ⟨j, .inl hj, rfl⟩
        · exact ⟨item, .inr (.inl rfl), rfl⟩
        · exact ⟨j, .inr (.inr hj), rfl⟩
      obtain ⟨j', hj', hn⟩ := this
      obtain ⟨p, hp, f2, -, ho⟩ := forall₂_mem_right hall hj'
      rw [← hn, ho.filename]
      exact storedName_suffix _
    have hfi : findItem vis (storedName n) = some (item.1, d') := by
      rw [hvis]
      have := findItem_append_cons (a := ia) (c := ic) (i := (item.1, d')) hicn
      simpa only [e2.filename] using this
    refine ⟨fun name hname => readsAs hf32 ?_, fun name hne1 hne2 => ?_⟩
    · obtain ⟨r', -, q⟩ := arch_read ha codec hr name
      rw [q, findName_suffixed hnm (by rw [hname]; exact hfi)]
      simp only []
      rw [e2.method, e2.crc, hm]
    · obtain ⟨r', -, q⟩ := arch_read ha codec hr name
      obtain ⟨r'', -, q0⟩ := arch_read ha0 codec o4 name
      have hfe : findName vis name = findName (ia ++ item :: ic) name := by
        unfold findName
        rw [hvis, findItem_replace (m := name) (by rw [e2.filename]; exact hne1),
          findItem_replace (m := name ++ _) (by rw [e2.filename]; exact hne2)]
      have heq : (Reader.readFile codec name (r.after cfg codec calls)).1 = (Reader.readFile codec name r₀).1 := by
        rw [q, q0, hfe]
      exact ⟨fun α ops => by rw [reader_read_eq, reader_read_eq, heq], by rw [reader_peek_eq, reader_peek_eq, heq]⟩

/-- **C64** with the bundled compressor, data by data. In a deflated archive, put in the place of the compressed data of an entry
any data of the same length. If they visibly break the DEFLATE format (`Breaks`), reading the entry throws `runtime_error`.
If they are a DEFLATE stream of data of a size in `SafeSize`, it throws `runtime_error` unless those bytes have the CRC-32 of the
file that was written; then they are loaded. -/
theorem C64_deflated (cfg : Cfg) (j : Junk) (fuel : Nat) (hfuel : 2 ^ 37 ≤ fuel) (hbig : cfg.nativeBig = false) (e : Endian)
    (before rest : List (Bytes × AnyTensor)) (n : Bytes) (t : AnyTensor) (w₁ w : Writer)
    (h₁ : Writer.writeAll cfg (miniz cfg j fuel) before (Writer.newString DEFLATED e) = (.ok (), w₁))
    (hw : Writer.writeAll cfg (miniz cfg j fuel) ((n, t) :: rest) w₁ = (.ok (), w))
    (hlen : w.str.length < 2 ^ 32) (hcount : (before ++ (n, t) :: rest).length < 65536)
    (hnames : ∀ p ∈ before ++ (n, t) :: rest, (storedName p.1).length < 65536)
    (hfile : ∀ f, saveToString cfg t.ops t.x e = .ok f → f.length ≤ 2 ^ 30)
    (hlast : ∀ p ∈ rest, storedName p.1 ≠ storedName n) :
    ∃ w' f z P Q, saveToString cfg t.ops t.x e = .ok f ∧ Writer.close w = (.ok (), w') ∧ w'.str = P ++ z ++ Q ∧
      Spec.Deflate.InflatesExactly z f ∧
      ∀ z' : Bytes, z'.length = z.length → ∃ r, Reader.open (IStream.ofFile (P ++ z' ++ Q)) = .ok r ∧
        ∀ (calls : List RdCall) (name : Bytes), storedName name = storedName n → ∀ (α : Type) (ops : ElemOps α),
          (∀ out, Spec.Deflate.Breaks z' out → out.length ≤ 2 ^ 35 → z'.length ≤ 1048576 ∨ out.length ≤ 1048576 →
            (Reader.read cfg (miniz cfg j fuel) ops name (r.after cfg (miniz cfg j fuel) calls)).1 =
              .error (.throw (.runtimeError .inflateError))) ∧
          (∀ g, Spec.Deflate.Inflates z' g → Spec.Deflate.SafeSize g.length →
            (Reader.read cfg (miniz cfg j fuel) ops name (r.after cfg (miniz cfg j fuel) calls)).1 =
              if Spec.crc32 g = Spec.crc32 f then loadFromString cfg ops g
              else .error (.throw (.runtimeError .crcMismatch))) := by
  obtain ⟨big, nd, w16⟩ := cfg
  obtain rfl : big = false := hbig
  obtain ⟨w', f, d, P, Q, a1, a2, a3, -, a5, a6⟩ := C64_replaced ⟨false, nd, w16⟩ (miniz ⟨false, nd, w16⟩ j fuel) e true before rest n t w₁ w h₁ hw hlen
    hcount hnames (fun f hf => (hfile f hf).trans_lt (by norm_num)) hlast
  have hf := hfile f a1
  obtain ⟨z, hz, hd⟩ := a5 rfl
  obtain ⟨z', hz', hinf⟩ := C58_standard (!nd) j f (by omega) fuel (by omega)
  have hzz : z' = z := by
    have : (miniz ⟨false, nd, w16⟩ j fuel).deflate f = .ok z' := hz'
    rw [this] at hz
    exact Except.ok.inj hz
  subst hzz
  have hsz := C58_size _ _ _ (by omega) _ (by omega) z' hz'
  rw [Nat.mod_eq_of_lt (by omega), List.take_length] at hd
  subst hd
  refine ⟨w', f, d, P, Q, a1, a2, a3, hinf, fun z'' hl => ?_⟩
  obtain ⟨r, r₀, o1, -, o3⟩ := a6 z'' hl _ (.inr rfl)
  refine ⟨r, o1, fun calls name hn α ops => ?_⟩
  have hr := (o3 calls).1 name hn
  refine ⟨fun out hb hout hs => ?_, fun g hg hgl => ?_⟩
  · exact (hr.fails _ rfl (C63_rejected z'' out hb hs fuel (by omega))).1 α ops
  · have hgle := hgl.le
    have hi : (if true = true then (miniz ⟨false, nd, w16⟩ j fuel).inflate z'' else .ok z'') = .ok g := by
      rw [if_pos rfl]; exact C55_safe z'' g hg hgl fuel (by omega)
    by_cases hc : Spec.crc32 g = Spec.crc32 f
    · rw [if_pos hc]; exact (hr.agrees g hi (by omega) hc).1 α ops
    · rw [if_neg hc]; exact (hr.differs g hi (by omega) hc).1 α ops

theorem exPuts_split {codec : Codec} {m : Nat} {e : Endian} {w : Writer}
    (h : Writer.writeAll exCfg codec exPuts (Writer.newString m e) = (.ok (), w)) :
    ∃ w₁, Writer.writeAll exCfg codec [(b!"x", ⟨Elem, fixedOps .int16, exTensor⟩)] (Writer.newString m e) = (.ok (), w₁) ∧
      Writer.writeAll exCfg codec [(b!"y.npy", ⟨WStr, wideOps, exWide⟩), (b!"x.npy", ⟨Elem, fixedOps .float64, exTensor2⟩)] w₁ =
        (.ok (), w) :=
  writeAll_append [(b!"x", ⟨Elem, fixedOps .int16, exTensor⟩)]
    [(b!"y.npy", ⟨WStr, wideOps, exWide⟩), (b!"x.npy", ⟨Elem, fixedOps .float64, exTensor2⟩)] h

/-- Three writes; the compressed data of the second are overwritten with bytes 7 (a block of the reserved type). -/
example (j : Junk) : ∃ w w' P z Q r,
    Writer.writeAll exCfg (miniz exCfg j (2 ^ 37)) exPuts (Writer.newString DEFLATED .little) = (.ok (), w) ∧
    Writer.close w = (.ok (), w') ∧ w'.str = P ++ z ++ Q ∧ z ≠ [] ∧
    Reader.open (IStream.ofFile (P ++ List.replicate z.length 7 ++ Q)) = .ok r ∧
    (Reader.read exCfg (miniz exCfg j (2 ^ 37)) wideOps b!"y" (r.after exCfg (miniz exCfg j (2 ^ 37)) [.peek b!"x"])).1 =
      .error (.throw (.runtimeError .inflateError)) := by
  obtain ⟨w, h1, -⟩ := C31_npz_roundtrip exCfg j (2 ^ 37) (by norm_num) rfl .little exPuts exPuts_storable
    (fun p hp f hf => .inl ((exPuts_small p hp f hf).trans (by norm_num)))
  have hsz := miniz_archive_size (N := 10) (B := 200) (by norm_num) rfl h1 (by norm_num) (by decide) exPuts_small
  have h3 : exPuts.length = 3 := rfl
  rw [h3] at hsz
  obtain ⟨w₁, h2, h4⟩ := exPuts_split h1
  obtain ⟨w', f, z, P, Q, a1, a2, a3, a4, a5⟩ := C64_deflated exCfg j (2 ^ 37) le_rfl rfl .little _ _ _ _ w₁ w h2 h4 (by omega)
    (by decide) (by decide) (fun f hf => (exPuts_small (b!"y.npy", ⟨WStr, wideOps, exWide⟩) (by simp [exPuts]) f hf).trans (by norm_num)) (by decide)
  have hz : z ≠ [] := by
    rintro rfl
    obtain ⟨blocks, R, b1, -, b2, -, -⟩ := a4
    match blocks with
    | [] => exact b1 rfl
    | [b] => cases b <;> simp [Spec.bits, Spec.Deflate.streamBits, Spec.Deflate.Block.bits] at b2
    | b :: _ :: _ => cases b <;> simp [Spec.bits, Spec.Deflate.streamBits, Spec.Deflate.Block.bits] at b2
  obtain ⟨r, o1, o2⟩ := a5 (List.replicate z.length 7) (by simp)
  refine ⟨w, w', P, z, Q, r, h1, a2, a3, hz, o1, (o2 [.peek b!"x"] b!"y" (by decide) _ _).1 [] ?_ (by simp) (.inr (by simp))⟩
  obtain ⟨k, hk⟩ : ∃ k, z.length = k + 1 := ⟨z.length - 1, by have := List.length_pos_iff.2 hz; omega⟩
  refine ⟨[], _, trivial, ?_, .reserved true (List.replicate 5 false ++ Spec.bits (List.replicate k 7)), rfl⟩
  rw [hk, List.replicate_succ]
  show Spec.byteBits 7 ++ Spec.bits (List.replicate k 7) = _
  rw [show Spec.byteBits 7 = true :: Spec.Deflate.lsb 2 3 ++ List.replicate 5 false from by decide]
  rfl

end Npy
