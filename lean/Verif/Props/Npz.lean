import Verif.Proofs.Archive
import Verif.Props.Npy
/-!
# Properties of NPZ archives: writing and reading back (C30-C38, C48)
-/

namespace Npy
open Spec (TensorOk IsElem IsWide Storable)

/-! ### Reading a tensor in terms of reading its file -/

theorem reader_read_eq {α : Type} (cfg : Cfg) (codec : Codec) (ops : ElemOps α) (name : Bytes) (r : Reader) :
    (Reader.read cfg codec ops name r).1 = ((Reader.readFile codec name r).1).bind (loadFromString cfg ops) := by
  unfold Reader.read
  rw [SM.bind_apply]
  match h : Reader.readFile codec name r with
  | (.ok b, s) => rfl
  | (.error e, s) => rfl

theorem reader_peek_eq (cfg : Cfg) (codec : Codec) (name : Bytes) (r : Reader) :
    (Reader.peek cfg codec name r).1 = ((Reader.readFile codec name r).1).bind (peekString cfg) := by
  unfold Reader.peek
  rw [SM.bind_apply]
  match h : Reader.readFile codec name r with
  | (.ok b, s) => rfl
  | (.error e, s) => rfl

theorem npyCrc32_cut (f : Bytes) : npyCrc32 (f.take (f.length % 2 ^ 32)) = npyCrc32 f := by
  unfold npyCrc32
  have h1 : (f.take (f.length % 2 ^ 32)).length = f.length % 2 ^ 32 := by
    rw [List.length_take]; exact Nat.min_eq_left (Nat.mod_le _ _)
  rw [h1, Nat.mod_mod, List.take_take, Nat.min_self]

/-- A stored file comes back cut to its length modulo 2^32. -/
theorem readBack_stored_cut (codec : Codec) (f : Bytes) :
    readBack codec STORED f = .ok (f.take (f.length % 2 ^ 32)) := by
  unfold readBack compressWith finish decompressWith
  rw [if_pos rfl]
  simp only []
  rw [if_neg (by decide)]
  simp only []
  rw [if_neg (by rw [npyCrc32_cut]; simp)]

theorem readBack_stored (codec : Codec) {f : Bytes} (hf : f.length < 2 ^ 32) : readBack codec STORED f = .ok f := by
  rw [readBack_stored_cut, Nat.mod_eq_of_lt hf, List.take_length]

theorem ready_ofBytes (b : Bytes) : (IStream.ofBytes b).Ready b := ⟨rfl, rfl, rfl⟩
theorem ready_ofFile (b : Bytes) : (IStream.ofFile b).Ready b := ⟨rfl, rfl, rfl⟩

theorem storedName_length (n : Bytes) : (Spec.storedName n).length ≤ n.length + 4 := by
  unfold Spec.storedName; split <;> simp

theorem lookup_mem {β : Type _} {puts : List (Bytes × β)} {name : Bytes} {t : β} (h : Spec.lookup puts name = some t) :
    ∃ n, (n, t) ∈ puts := by
  have key : ∀ m, Spec.lastWrite puts m = some t → ∃ n, (n, t) ∈ puts := by
    intro m hm
    unfold Spec.lastWrite at hm
    rw [Option.map_eq_some_iff] at hm
    obtain ⟨⟨n, t'⟩, h1, h2⟩ := hm
    simp only at h2; subst h2
    exact ⟨n, List.mem_reverse.1 (List.mem_of_find?_eq_some h1)⟩
  unfold Spec.lookup at h
  split at h
  · rename_i b hb
    simp only [Option.some.injEq] at h; subst h
    exact key _ hb
  · exact key _ h

theorem lookup_map {β γ : Type _} (g : β → γ) (puts : List (Bytes × β)) (name : Bytes) :
    Spec.lookup (puts.map fun p => (p.1, g p.2)) name = (Spec.lookup puts name).map g := by
  have key : ∀ m, Spec.lastWrite (puts.map fun p => (p.1, g p.2)) m = (Spec.lastWrite puts m).map g := by
    intro m
    unfold Spec.lastWrite
    rw [← List.map_reverse, List.find?_map]
    simp only [Option.map_map]
    rfl
  unfold Spec.lookup
  rw [key, key]
  cases Spec.lastWrite puts name <;> rfl

/-! ### C30, C31: archives as maps -/

/-- What a compression method has to do for an archive to give the files back. -/
def GivesBack (codec : Codec) (method : Nat) (f : Bytes) : Prop := readBack codec method f = .ok f

theorem archive_map (cfg : Cfg) (codec : Codec) (method : Nat) (hm : method < 2 ^ 16) (e : Endian) (puts : List (Bytes × AnyTensor)) (w : Writer)
    (hw : Writer.writeAll cfg codec puts (Writer.newString method e) = (.ok (), w))
    (hlen : w.str.length < 2 ^ 32) (hcount : puts.length < 2 ^ 16)
    (hnames : ∀ p ∈ puts, (Spec.storedName p.1).length < 2 ^ 16)
    (hback : ∀ p ∈ puts, ∀ f, saveToString cfg p.2.ops p.2.x e = .ok f → GivesBack codec method f) :
    ∃ w', Writer.close w = (.ok (), w') ∧
      ∀ s : IStream, s = IStream.ofBytes w'.str ∨ s = IStream.ofFile w'.str → ∃ r, Reader.open s = .ok r ∧
        ∀ (calls : List RdCall) (name : Bytes) (α : Type) (ops : ElemOps α),
          (Reader.read cfg codec ops name (r.after cfg codec calls)).1 =
            match Spec.lookup puts name with
            | some t => (saveToString cfg t.ops t.x e).bind (loadFromString cfg ops)
            | none => .error (.throw (.invalidArgument .filename)) := by
  obtain ⟨w', c1, -, c3⟩ := writer_reads (newString_inv method e) hm hw hlen hnames
  refine ⟨w', c1, ?_⟩
  intro s hs
  have hs' : s.Ready w'.str := by rcases hs with rfl | rfl; exacts [ready_ofBytes _, ready_ofFile _]
  obtain ⟨r, o1, -, o3⟩ := c3 s hs'
  refine ⟨r, o1, ?_⟩
  intro calls name α ops
  rw [reader_read_eq, (o3 calls name).1, Nat.mod_eq_of_lt hcount, List.take_length]
  match hl : Spec.lookup puts name with
  | none => rfl
  | some t =>
    obtain ⟨n, hn⟩ := lookup_mem hl
    simp only []
    change ((saveToString cfg t.ops t.x e).bind (readBack codec method)).bind _ = _
    match hf : saveToString cfg t.ops t.x e with
    | .error er => rfl
    | .ok f =>
      have := hback _ hn f hf
      unfold GivesBack at this
      simp only [Except.bind, this]

/-- **C30**. Any sequence of writes on a STORED writer that succeeds, of fewer than 65536 tensors with names of fewer than
65536 bytes and files under 4 GiB, with the archive still under 4 GiB: `close()` succeeds, the archive opens (from a string
or a file), and after any calls on the reader, `read<T>(name)` does what `load<T>` does on the NPY file of the tensor
most recently written under that name, and throws `invalid_argument` if there is none. -/
theorem C30_npz_map (cfg : Cfg) (codec : Codec) (e : Endian) (puts : List (Bytes × AnyTensor)) (w : Writer)
    (hw : Writer.writeAll cfg codec puts (Writer.newString STORED e) = (.ok (), w))
    (hlen : w.str.length < 2 ^ 32) (hcount : puts.length < 65536)
    (hnames : ∀ p ∈ puts, (Spec.storedName p.1).length < 65536)
    (hfiles : ∀ p ∈ puts, ∀ f, saveToString cfg p.2.ops p.2.x e = .ok f → f.length < 2 ^ 32) :
    ∃ w', Writer.close w = (.ok (), w') ∧
      ∀ s : IStream, s = IStream.ofBytes w'.str ∨ s = IStream.ofFile w'.str → ∃ r, Reader.open s = .ok r ∧
        ∀ (calls : List RdCall) (name : Bytes) (α : Type) (ops : ElemOps α),
          (Reader.read cfg codec ops name (r.after cfg codec calls)).1 =
            match Spec.lookup puts name with
            | some t => (saveToString cfg t.ops t.x e).bind (loadFromString cfg ops)
            | none => .error (.throw (.invalidArgument .filename)) :=
  archive_map cfg codec STORED (by decide) e puts w hw hlen hcount hnames
    fun p hp f hf => readBack_stored codec (hfiles p hp f hf)

theorem storable_roundtrip {cfg : Cfg} {e : Endian} {t : AnyTensor} (h : Storable cfg e t) :
    ∃ f, saveToString cfg t.ops t.x e = .ok f ∧ loadFromString cfg t.ops f = .ok t.x := by
  cases h with
  | fixed dt ht x hx hv hlen =>
    obtain ⟨f, h1, h2⟩ := C01_npy_roundtrip cfg dt ht x hx hv e hlen
    refine ⟨f, h1, ?_⟩
    have := h2 []
    rw [List.append_nil] at this
    simp only [loadFromString, this]
  | wide x hx hw h0 hmax hlen =>
    obtain ⟨f, h1, h2⟩ := C03_unicode_roundtrip cfg x hx hw h0 e hmax hlen
    refine ⟨f, h1, ?_⟩
    have := h2 []
    rw [List.append_nil] at this
    simp only [loadFromString, this]

/-- **C30**, round trip: any tensors that NPY files can hold, under any names. The writes succeed, and if the archive stays
under 4 GiB every name gives back exactly the tensor most recently written under it. -/
theorem C30_npz_roundtrip (cfg : Cfg) (codec : Codec) (e : Endian) (puts : List (Bytes × AnyTensor))
    (hok : ∀ p ∈ puts, Storable cfg e p.2) :
    ∃ w, Writer.writeAll cfg codec puts (Writer.newString STORED e) = (.ok (), w) ∧
      (w.str.length < 2 ^ 32 → puts.length < 65536 → (∀ p ∈ puts, (Spec.storedName p.1).length < 65536) →
        (∀ p ∈ puts, ∀ f, saveToString cfg p.2.ops p.2.x e = .ok f → f.length < 2 ^ 32) →
        ∃ w', Writer.close w = (.ok (), w') ∧
          ∀ s : IStream, s = IStream.ofBytes w'.str ∨ s = IStream.ofFile w'.str → ∃ r, Reader.open s = .ok r ∧
            ∀ (calls : List RdCall) (name : Bytes) (t : AnyTensor), Spec.lookup puts name = some t →
              (Reader.read cfg codec t.ops name (r.after cfg codec calls)).1 = .ok t.x) := by
  obtain ⟨w, hw⟩ := writeAll_ok (cfg := cfg) (codec := codec) puts (newString_inv STORED e) (by
    intro p hp
    obtain ⟨f, h1, -⟩ := storable_roundtrip (hok p hp)
    exact ⟨f, f, h1, rfl⟩)
  refine ⟨w, hw, ?_⟩
  intro hlen hcount hnames hfiles
  obtain ⟨w', c1, c2⟩ := C30_npz_map cfg codec e puts w hw hlen hcount hnames hfiles
  refine ⟨w', c1, fun s hs => ?_⟩
  obtain ⟨r, o1, o2⟩ := c2 s hs
  refine ⟨r, o1, ?_⟩
  intro calls name t hl
  rw [o2 calls name _ t.ops, hl]
  obtain ⟨n, hn⟩ := lookup_mem hl
  obtain ⟨f, h1, h2⟩ := storable_roundtrip (hok _ hn)
  simp only at h1 h2
  simp only [h1, Except.bind, h2]

/-- Three writes of three element types; the third replaces the first. -/
def exTensor2 : Tensor Elem :=
  { shape := [2], ravelStrides := [1], fortranOrder := false, dtype := .float64,
    values := [[4611686018427387904], [1]] }

/-- A codec for the examples with STORED archives, which never call it. -/
def noCodec : Codec := ⟨fun _ => .error .abort, fun _ => .error .abort⟩

def exPuts : List (Bytes × AnyTensor) :=
  [(b!"x", ⟨Elem, fixedOps .int16, exTensor⟩), (b!"y.npy", ⟨WStr, wideOps, exWide⟩),
   (b!"x.npy", ⟨Elem, fixedOps .float64, exTensor2⟩)]

def exCfg : Cfg := ⟨false, true, false⟩

theorem exPuts_storable : ∀ p ∈ exPuts, Storable exCfg .little p.2 := by
  intro p hp
  simp only [exPuts, List.mem_cons, List.not_mem_nil, or_false] at hp
  rcases hp with rfl | rfl | rfl
  · exact .fixed .int16 (by decide) _ exTensor_ok exTensor_elems
      (headerDict_length_le (by unfold Spec.descr; rw [← decimal_eq_spec]; decide))
  · exact .wide _ (Tensor.ok_of_strides (by decide) (by decide) (by decide) rfl (by decide)) (by unfold IsWide; decide)
      (by decide) (by decide) (headerDict_length_le (by unfold Spec.descrU; rw [← decimal_eq_spec]; decide))
  · refine .fixed .float64 (by decide) _ (Tensor.ok_of_strides (by decide) (by decide) (by decide) rfl (by decide)) ?_
      (headerDict_length_le (by unfold Spec.descr; rw [← decimal_eq_spec]; decide))
    intro v hv
    simp only [exTensor2, List.mem_cons, List.not_mem_nil, or_false] at hv
    rcases hv with rfl | rfl <;> exact ⟨rfl, by decide⟩

theorem exPuts_files : ∀ p ∈ exPuts, ∀ f, saveToString exCfg p.2.ops p.2.x .little = .ok f → f.length < 2 ^ 32 := by
  intro p hp f hf
  simp only [exPuts, List.mem_cons, List.not_mem_nil, or_false] at hp
  have key : ∀ (r : Except Err Bytes), r = .ok f → r.toOption.getD [] = f := by rintro _ rfl; rfl
  rw [← key _ hf]
  rcases hp with rfl | rfl | rfl <;> decide +kernel

example : ∃ w w' r, Writer.writeAll exCfg noCodec exPuts (Writer.newString STORED .little) = (.ok (), w) ∧
    Writer.close w = (.ok (), w') ∧ Reader.open (IStream.ofFile w'.str) = .ok r ∧
    (Reader.read exCfg noCodec wideOps b!"y" (r.after exCfg noCodec [.peek b!"nope", .read _ (fixedOps .int16) b!"x"])).1 = .ok exWide ∧
    (Reader.read exCfg noCodec (fixedOps .float64) b!"x" r).1 = .ok exTensor2 := by
  obtain ⟨w, h1, h2⟩ := C30_npz_roundtrip exCfg noCodec .little exPuts exPuts_storable
  have hw : w = (Writer.writeAll exCfg noCodec exPuts (Writer.newString STORED .little)).2 := by rw [h1]
  obtain ⟨w', h3, h4⟩ := h2 (by rw [hw]; decide +kernel) (by decide) (by decide) exPuts_files
  obtain ⟨r, h5, h6⟩ := h4 _ (.inr rfl)
  exact ⟨w, w', r, h1, h3, h5, h6 _ b!"y" ⟨WStr, wideOps, exWide⟩ rfl, h6 [] b!"x" ⟨Elem, fixedOps .float64, exTensor2⟩ rfl⟩

/-! ### C32, C33: closing, and writes that throw -/

/-- **C32**. `close()` always returns; a second `close()` changes nothing; the destructor leaves what `close()` leaves,
whether or not `close()` was called; and any later write throws `runtime_error` and leaves the writer, its output and
its directory as they were. -/
theorem C32_close (w : Writer) :
    ∃ w', Writer.close w = (.ok (), w') ∧ w'.closed = true ∧ Writer.close w' = (.ok (), w') ∧
      Writer.destroy w = (.ok (), w') ∧ Writer.destroy w' = (.ok (), w') ∧
      ∀ (cfg : Cfg) (codec : Codec) (α : Type) (ops : ElemOps α) (name : Bytes) (t : Tensor α),
        Writer.write cfg codec ops name t w' = (.error (.throw (.runtimeError .streamClosed)), w') := by
  by_cases hc : w.closed = true
  · exact ⟨w, by simp [Writer.close, hc], hc, by simp [Writer.close, hc], by simp [Writer.destroy, hc],
      by simp [Writer.destroy, hc], fun cfg codec α ops name t => by simp [Writer.write, hc]⟩
  · have hc' : w.closed = false := by simpa using hc
    obtain ⟨w', h⟩ : ∃ w', Writer.close w = (.ok (), w') := by
      simp only [Writer.close, hc']; exact ⟨_, rfl⟩
    have hcl : w'.closed = true := by
      simp only [Writer.close, hc', Bool.false_eq_true, if_false, Prod.mk.injEq, true_and] at h
      rw [← h]
    exact ⟨w', h, hcl, by simp [Writer.close, hcl], by simp [Writer.destroy, hc', h],
      by simp [Writer.destroy, hcl], fun cfg codec α ops name t => by simp [Writer.write, hcl]⟩

example : ∃ w', Writer.close (Writer.newString DEFLATED .big) = (.ok (), w') ∧ w'.str.length = 22 :=
  ⟨_, rfl, by decide⟩

/-- **C33**. A write that does not return (it throws, or the program aborts) leaves the writer exactly as it was. -/
theorem C33_failed_write {α : Type} (cfg : Cfg) (codec : Codec) (ops : ElemOps α) (name : Bytes) (t : Tensor α)
    (w w' : Writer) (er : Err) (h : Writer.write cfg codec ops name t w = (.error er, w')) : w' = w := by
  simp only [Writer.write] at h
  split at h
  · simp only [Prod.mk.injEq] at h; exact h.2.symm
  · split at h
    · simp only [Prod.mk.injEq] at h; exact h.2.symm
    · simp only [Writer.writeFile] at h
      split at h
      · simp only [Prod.mk.injEq] at h; exact h.2.symm
      · split at h
        · simp at h
        · simp only [Prod.mk.injEq] at h; exact h.2.symm

/-- **C33**, unsupported methods: with a compression method other than STORED and DEFLATED, a write of a tensor that can be
saved throws `invalid_argument` and leaves the writer as it was. -/
theorem C33_unsupported_method {α : Type} (cfg : Cfg) (codec : Codec) (ops : ElemOps α) (name : Bytes) (t : Tensor α)
    (w : Writer) (hc : w.closed = false) (f : Bytes) (hf : saveToString cfg ops t w.endianness = .ok f)
    (hm : w.method ≠ STORED ∧ w.method ≠ DEFLATED) :
    Writer.write cfg codec ops name t w = (.error (.throw (.invalidArgument .unsupportedCompression)), w) := by
  unfold saveToString at hf
  simp only [Writer.write, hc, Bool.false_eq_true, if_false]
  match hs : save cfg ops t w.endianness OStream.empty with
  | .error er => rw [hs] at hf; simp [Except.map] at hf
  | .ok out => simp [Writer.writeFile, hc, Npy.writeFile, hm.1, hm.2]

example : Writer.write exCfg noCodec (fixedOps .int16) b!"x" exTensor (Writer.newString 12 .little) =
    (.error (.throw (.invalidArgument .unsupportedCompression)), Writer.newString 12 .little) := by
  obtain ⟨f, h, -⟩ := storable_roundtrip (exPuts_storable (b!"x", ⟨Elem, fixedOps .int16, exTensor⟩) (by simp [exPuts]))
  exact C33_unsupported_method _ _ _ _ _ _ rfl f h ⟨by decide, by decide⟩

/-- The calls that returned. -/
def Spec.returned (l : List (WrCall × Except Err Unit)) : List WrCall :=
  (l.filter fun p => match p.2 with | .ok _ => true | .error _ => false).map (·.1)

/-- **C33**, histories: over any sequence of writes and closes, the calls that throw might as well not have been made: the
writer ends in the same state, hence with the same output and directory, as after the calls that returned. -/
theorem C33_history (cfg : Cfg) (codec : Codec) (calls : List WrCall) (w : Writer) :
    Writer.after cfg codec w (Spec.returned (Writer.trace cfg codec w calls)) = Writer.after cfg codec w calls := by
  induction calls generalizing w with
  | nil => rfl
  | cons c calls ih =>
    match h : c.run cfg codec w with
    | (.ok u, w') =>
      have h1 : Spec.returned (Writer.trace cfg codec w (c :: calls)) = c :: Spec.returned (Writer.trace cfg codec w' calls) := by
        simp [Spec.returned, Writer.trace, h]
      rw [h1]
      simp only [Writer.after, List.foldl_cons, h]
      exact ih w'
    | (.error er, w') =>
      have h1 : Spec.returned (Writer.trace cfg codec w (c :: calls)) = Spec.returned (Writer.trace cfg codec w' calls) := by
        simp [Spec.returned, Writer.trace, h]
      have hw : w' = w := by
        cases c with
        | write t name => exact C33_failed_write cfg codec t.ops name t.x w w' er h
        | close =>
          obtain ⟨w'', h2, -⟩ := C32_close w
          simp only [WrCall.run] at h
          rw [h2] at h; simp at h
      rw [h1, hw, ih]
      simp only [Writer.after, List.foldl_cons, h, hw]

example : Writer.after exCfg noCodec (Writer.newString STORED .little)
      [.write ⟨WStr, wideOps, exWide⟩ b!"y", .close, .write ⟨Elem, fixedOps .int16, exTensor⟩ b!"x", .close] =
    Writer.after exCfg noCodec (Writer.newString STORED .little) [.write ⟨WStr, wideOps, exWide⟩ b!"y", .close, .close] := by
  decide +kernel

/-! ### C34: files and strings -/

/-- Two writers that differ only in being on a file or a string. -/
structure SameWriter (a b : Writer) : Prop where
  closed : a.closed = b.closed
  buf : a.output.buf = b.output.buf
  method : a.method = b.method
  endianness : a.endianness = b.endianness
  entries : a.entries = b.entries
  ha : a.closed = false → a.output.Healthy
  hb : b.closed = false → b.output.Healthy

theorem SameWriter.call {a b : Writer} (h : SameWriter a b) (cfg : Cfg) (codec : Codec) (c : WrCall) :
    (c.run cfg codec a).1 = (c.run cfg codec b).1 ∧ SameWriter (c.run cfg codec a).2 (c.run cfg codec b).2 := by
  cases hc : a.closed with
  | true =>
    have hc' : b.closed = true := by rw [← h.closed, hc]
    cases c with
    | write t name => simp [WrCall.run, Writer.write, hc, hc', h]
    | close => simp [WrCall.run, Writer.close, hc, hc', h]
  | false =>
    have hc' : b.closed = false := by rw [← h.closed, hc]
    have ha := h.ha hc
    have hb := h.hb hc'
    cases c with
    | write t name =>
      simp only [WrCall.run, Writer.write, hc, hc', Bool.false_eq_true, if_false, h.endianness]
      match save cfg t.ops t.x b.endianness OStream.empty with
      | .error er => exact ⟨rfl, h⟩
      | .ok out =>
        simp only [Writer.writeFile, hc, hc', Bool.false_eq_true, if_false]
        rw [entryName_eq, h.method]
        match hd : compressWith codec b.method out.buf with
        | .error er =>
          have : ∀ o es, Npy.writeFile codec o es (Spec.storedName name) b.method out.buf = .error er := by
            intro o es
            unfold Npy.writeFile
            unfold compressWith at hd
            simp only [hd]
          rw [this, this]
          exact ⟨rfl, h⟩
        | .ok d =>
          have : ∀ o : OStream, o.Healthy → ∀ es, Npy.writeFile codec o es (Spec.storedName name) b.method out.buf =
              .ok ({ o with buf := o.buf ++ recBytes ⟨⟨Spec.storedName name, npyCrc32 out.buf, d.length % 2 ^ 32,
                out.buf.length % 2 ^ 32, b.method, o.buf.length % 2 ^ 32⟩, d.take (d.length % 2 ^ 32)⟩ },
                es ++ [⟨Spec.storedName name, npyCrc32 out.buf, d.length % 2 ^ 32,
                  out.buf.length % 2 ^ 32, b.method, o.buf.length % 2 ^ 32⟩]) := by
            intro o ho es
            have hcs : (if b.method = STORED then out.buf.length % 2 ^ 32 else d.length % 2 ^ 32) = d.length % 2 ^ 32 := by
              split
              · rename_i h
                rw [compressWith, if_pos h, Except.ok.injEq] at hd
                rw [hd]
              · rfl
            unfold Npy.writeFile
            unfold compressWith at hd
            simp only [hd, hcs, OStream.tellp32_healthy ho, OStream.write_healthy ho]
            rw [OStream.write_healthy (OStream.healthy_buf ho _)]
            simp [recBytes]
          rw [this _ ha, this _ hb]
          simp only []
          refine ⟨trivial, ⟨rfl, ?_, rfl, h.endianness, ?_, fun _ => OStream.healthy_buf ha _, fun _ => OStream.healthy_buf hb _⟩⟩
          · simp only [h.buf]
          · simp only [h.entries, h.buf]
    | close =>
      have hcl : (closeArchive a.entries a.output).buf = (closeArchive b.entries b.output).buf := by
        unfold closeArchive
        simp only [foldl_write_healthy ha, foldl_write_healthy hb, OStream.tellp32_healthy ha, OStream.tellp32_healthy hb]
        rw [OStream.tellp32_healthy (OStream.healthy_buf ha _), OStream.tellp32_healthy (OStream.healthy_buf hb _),
          OStream.write_healthy (OStream.healthy_buf ha _), OStream.write_healthy (OStream.healthy_buf hb _)]
        simp only [h.entries, h.buf]
      simp only [WrCall.run, Writer.close, hc, hc', Bool.false_eq_true, if_false, true_and]
      refine ⟨rfl, ?_, h.method, h.endianness, h.entries, by simp, by simp⟩
      rw [show ∀ (x : Bool) (o : OStream), (if x = true then { o with isOpen := false } else o).buf = o.buf by
        intro x o; cases x <;> rfl, hcl]
      cases b.isFile <;> rfl

/-- **C34**, writers. Whatever sequence of writes and closes is performed: the calls return or throw alike on an
`npzstringwriter` and on an `npzfilewriter` whose disk takes everything, and the file holds the bytes of `str()`. -/
theorem C34_writers (cfg : Cfg) (codec : Codec) (method : Nat) (e : Endian) (calls : List WrCall) :
    (Writer.trace cfg codec (Writer.newString method e) calls).map (·.2) =
      (Writer.trace cfg codec (Writer.newFile OStream.empty method e) calls).map (·.2) ∧
    (Writer.after cfg codec (Writer.newString method e) calls).output.buf =
      (Writer.after cfg codec (Writer.newFile OStream.empty method e) calls).output.buf := by
  have key : ∀ (calls : List WrCall) (a b : Writer), SameWriter a b →
      (Writer.trace cfg codec a calls).map (·.2) = (Writer.trace cfg codec b calls).map (·.2) ∧
      (Writer.after cfg codec a calls).output.buf = (Writer.after cfg codec b calls).output.buf := by
    intro calls
    induction calls with
    | nil => exact fun a b h => ⟨rfl, h.buf⟩
    | cons c calls ih =>
      intro a b h
      obtain ⟨h1, h2⟩ := h.call cfg codec c
      obtain ⟨h3, h4⟩ := ih _ _ h2
      exact ⟨by simp only [Writer.trace, List.map_cons, h1, h3], h4⟩
  exact key calls _ _ ⟨rfl, rfl, rfl, rfl, rfl, fun _ => OStream.empty_healthy, fun _ => OStream.empty_healthy⟩

/-- **C34**, readers. On an archive the library wrote (any method, any codec), the string reader and the file reader give
the same answers to `read`, `peek`, `contains` and `keys` after the same calls. -/
theorem C34_readers (cfg : Cfg) (codec : Codec) (method : Nat) (hm : method < 2 ^ 16) (e : Endian) (puts : List (Bytes × AnyTensor))
    (w : Writer) (hw : Writer.writeAll cfg codec puts (Writer.newString method e) = (.ok (), w))
    (hlen : w.str.length < 2 ^ 32) (hnames : ∀ p ∈ puts, (Spec.storedName p.1).length < 2 ^ 16) :
    ∃ w' r₁ r₂, Writer.close w = (.ok (), w') ∧ Reader.open (IStream.ofBytes w'.str) = .ok r₁ ∧
      Reader.open (IStream.ofFile w'.str) = .ok r₂ ∧
      ∀ (calls : List RdCall) (name : Bytes),
        (∀ (α : Type) (ops : ElemOps α), (Reader.read cfg codec ops name (r₁.after cfg codec calls)).1 =
          (Reader.read cfg codec ops name (r₂.after cfg codec calls)).1) ∧
        (Reader.peek cfg codec name (r₁.after cfg codec calls)).1 =
          (Reader.peek cfg codec name (r₂.after cfg codec calls)).1 ∧
        (r₁.after cfg codec calls).contains name = (r₂.after cfg codec calls).contains name ∧
        (r₁.after cfg codec calls).keys = (r₂.after cfg codec calls).keys := by
  obtain ⟨w', c1, -, c3⟩ := writer_reads (newString_inv method e) hm hw hlen hnames
  obtain ⟨r₁, o1, k1, p1⟩ := c3 _ (ready_ofBytes _)
  obtain ⟨r₂, o2, k2, p2⟩ := c3 _ (ready_ofFile _)
  refine ⟨w', r₁, r₂, c1, o1, o2, fun calls name => ?_⟩
  obtain ⟨a1, a2, a3⟩ := p1 calls name
  obtain ⟨b1, b2, b3⟩ := p2 calls name
  refine ⟨fun α ops => ?_, ?_, ?_, ?_⟩
  · rw [reader_read_eq, reader_read_eq, a1, b1]
  · rw [reader_peek_eq, reader_peek_eq, a1, b1]
  · rw [a2, b2]
  · rw [a3, b3, k1, k2]

example : (Writer.after exCfg noCodec (Writer.newFile OStream.empty STORED .big)
      [.write ⟨Elem, fixedOps .int16, exTensor⟩ b!"x", .close, .write ⟨WStr, wideOps, exWide⟩ b!"y"]).output.buf.length = 248 := by
  decide +kernel

/-! ### C35: names -/

/-- **C35**. The name rule, for every writer: a successful write adds exactly one directory entry, whose name is the given
one if it ends in ".npy" and the given one followed by ".npy" otherwise; and writing under `name` or under its stored form
is the same call. -/
theorem C35_names {α : Type} (cfg : Cfg) (codec : Codec) (ops : ElemOps α) (name : Bytes) (t : Tensor α) (w : Writer) :
    (∀ w', Writer.write cfg codec ops name t w = (.ok (), w') → ∃ entry, w'.entries = w.entries ++ [entry] ∧
      entry.filename = if b!".npy" <:+ name then name else name ++ b!".npy") ∧
    Writer.write cfg codec ops (Spec.storedName name) t w = Writer.write cfg codec ops name t w := by
  constructor
  · intro w' h
    simp only [Writer.write] at h
    split at h
    · simp at h
    · split at h
      · simp at h
      · simp only [Writer.writeFile] at h
        split at h
        · simp at h
        · split at h
          · rename_i o es heq
            simp only [Prod.mk.injEq, true_and] at h
            rw [← h]
            unfold Npy.writeFile at heq
            simp only [] at heq
            split at heq
            · simp at heq
            · simp only [Except.ok.injEq, Prod.mk.injEq] at heq
              refine ⟨_, heq.2.symm, ?_⟩
              exact entryName_eq name
          · simp at h
  · have : entryName (Spec.storedName name) = entryName name := by
      rw [entryName_eq, entryName_eq]
      unfold Spec.storedName
      split
      · rfl
      · rw [if_pos (List.suffix_append _ _)]
    simp only [Writer.write, this]

example : Spec.storedName b!"x" = b!"x.npy" ∧ Spec.storedName b!"x.npy" = b!"x.npy" ∧ Spec.storedName b!"npy" = b!"npy.npy" := by
  decide

/-! ### C36, C37, C38, C48: contains, keys, histories, absent names -/

/-- **C36**, exact relation. On an archive the library wrote, after any calls: `contains(name)` holds exactly if some tensor's
stored name is `name` itself; `read(name)` finds an entry exactly if `contains(name)` or `contains(name + ".npy")`. -/
theorem C36_contains (cfg : Cfg) (codec : Codec) (method : Nat) (hm : method < 2 ^ 16) (e : Endian) (puts : List (Bytes × AnyTensor))
    (w : Writer) (hw : Writer.writeAll cfg codec puts (Writer.newString method e) = (.ok (), w))
    (hlen : w.str.length < 2 ^ 32) (hcount : puts.length < 65536) (hnames : ∀ p ∈ puts, (Spec.storedName p.1).length < 65536) :
    ∃ w' r, Writer.close w = (.ok (), w') ∧ Reader.open (IStream.ofBytes w'.str) = .ok r ∧
      ∀ (calls : List RdCall) (name : Bytes),
        ((r.after cfg codec calls).contains name = true ↔ ∃ p ∈ puts, Spec.storedName p.1 = name) ∧
        ((Spec.lookup puts name).isSome = true ↔
          ((r.after cfg codec calls).contains name = true ∨ (r.after cfg codec calls).contains (name ++ b!".npy") = true)) ∧
        (Reader.readFile codec name (r.after cfg codec calls)).1 =
          match Spec.lookup puts name with
          | some t => (saveToString cfg t.ops t.x e).bind (readBack codec method)
          | none => .error (.throw (.invalidArgument .filename)) := by
  obtain ⟨w', c1, -, c3⟩ := writer_reads (newString_inv method e) hm hw hlen hnames
  obtain ⟨r, o1, k1, p1⟩ := c3 _ (ready_ofBytes _)
  refine ⟨w', r, c1, o1, fun calls name => ?_⟩
  obtain ⟨a1, a2, a3⟩ := p1 calls name
  obtain ⟨b1, b2, b3⟩ := p1 calls (name ++ b!".npy")
  rw [Nat.mod_eq_of_lt (b := 2 ^ 16) hcount, List.take_length] at a1 a2 b2
  refine ⟨?_, ?_, a1⟩
  · rw [a2]
    unfold Spec.lastWrite
    rw [Option.isSome_map, List.find?_isSome]
    simp
  · rw [a2, b2]
    unfold Spec.lookup
    cases Spec.lastWrite puts name <;> simp

/-- **C36** as usually understood is false: a tensor written as "x" is read back by `read("x")`, but `contains("x")` is
false. -/
theorem C36_contains_false : ∃ w w' r, Writer.writeAll exCfg noCodec exPuts (Writer.newString STORED .little) = (.ok (), w) ∧
    Writer.close w = (.ok (), w') ∧ Reader.open (IStream.ofBytes w'.str) = .ok r ∧
    (Reader.read exCfg noCodec (fixedOps .float64) b!"x" r).1 = .ok exTensor2 ∧ r.contains b!"x" = false := by
  obtain ⟨w, h1, h2⟩ := C30_npz_roundtrip exCfg noCodec .little exPuts exPuts_storable
  have hw : w = (Writer.writeAll exCfg noCodec exPuts (Writer.newString STORED .little)).2 := by rw [h1]
  have hl : w.str.length < 2 ^ 32 := by rw [hw]; decide +kernel
  obtain ⟨w', h3, h4⟩ := h2 hl (by decide) (by decide) exPuts_files
  obtain ⟨r, h5, h6⟩ := h4 _ (.inl rfl)
  obtain ⟨w'', r', g1, g2, g3⟩ := C36_contains exCfg noCodec STORED (by decide) .little exPuts w h1 hl (by decide) (by decide)
  have e1 : w'' = w' := by rw [h3] at g1; simpa using g1.symm
  rw [e1, h5] at g2
  have e2 : r' = r := by simpa using g2.symm
  refine ⟨w, w', r, h1, h3, h5, h6 [] b!"x" ⟨Elem, fixedOps .float64, exTensor2⟩ rfl, ?_⟩
  have := (g3 [] b!"x").1
  rw [e2] at this
  rw [← Bool.not_eq_true]
  exact fun hc => absurd (this.1 hc) (by decide)

theorem bytesLe_iff (a b : Bytes) : bytesLe a b = true ↔ a ≤ b := by
  induction a generalizing b with
  | nil => simp [bytesLe]
  | cons x xs ih =>
    cases b with
    | nil => simp [bytesLe]
    | cons y ys =>
      rw [bytesLe, List.cons_le_cons_iff]
      by_cases h1 : x < y
      · simp [h1]
      · by_cases h2 : y < x
        · have : x ≠ y := by rintro rfl; exact h1 h2
          simp [h1, h2, this]
        · have : x = y := by
            rw [UInt8.lt_iff_toNat_lt] at h1 h2
            apply UInt8.toNat_inj.1; omega
          simp [this, ih]

theorem insertKey_perm (k : Bytes) (l : List Bytes) : (insertKey k l).Perm (k :: l) := by
  induction l with
  | nil => exact .refl _
  | cons x xs ih =>
    rw [insertKey]
    split
    · exact .refl _
    · exact ((List.Perm.cons x ih).trans (List.Perm.swap k x xs))

theorem sortKeys_perm (l : List Bytes) : (sortKeys l).Perm l := by
  induction l with
  | nil => exact .refl _
  | cons x xs ih =>
    rw [sortKeys, List.foldr_cons]
    exact (insertKey_perm _ _).trans (List.Perm.cons x ih)

theorem insertKey_sorted {k : Bytes} {l : List Bytes} (h : l.Pairwise (· ≤ ·)) : (insertKey k l).Pairwise (· ≤ ·) := by
  induction l with
  | nil => simp [insertKey]
  | cons x xs ih =>
    rw [insertKey]
    rw [List.pairwise_cons] at h
    split
    · rename_i hk
      rw [bytesLe_iff] at hk
      rw [List.pairwise_cons, List.pairwise_cons]
      refine ⟨?_, h⟩
      intro y hy
      rcases List.mem_cons.1 hy with rfl | hy
      · exact hk
      · exact List.le_trans hk (h.1 y hy)
    · rename_i hk
      rw [bytesLe_iff] at hk
      rw [List.pairwise_cons]
      refine ⟨?_, ih h.2⟩
      intro y hy
      have := (insertKey_perm k xs).mem_iff.1 hy
      rcases List.mem_cons.1 this with rfl | hy'
      · exact (List.le_total x y).resolve_right hk
      · exact h.1 y hy'

theorem sortKeys_sorted (l : List Bytes) : (sortKeys l).Pairwise (· ≤ ·) := by
  induction l with
  | nil => simp [sortKeys]
  | cons x xs ih => rw [sortKeys, List.foldr_cons]; exact insertKey_sorted ih

/-- **C37**. On an archive the library wrote, `keys()`, at any time, lists the stored names of all the writes, one occurrence
per write, in ascending lexicographic order of bytes. -/
theorem C37_keys (cfg : Cfg) (codec : Codec) (method : Nat) (hm : method < 2 ^ 16) (e : Endian) (puts : List (Bytes × AnyTensor))
    (w : Writer) (hw : Writer.writeAll cfg codec puts (Writer.newString method e) = (.ok (), w))
    (hlen : w.str.length < 2 ^ 32) (hcount : puts.length < 65536) (hnames : ∀ p ∈ puts, (Spec.storedName p.1).length < 65536) :
    ∃ w' r, Writer.close w = (.ok (), w') ∧ Reader.open (IStream.ofBytes w'.str) = .ok r ∧
      ∀ calls : List RdCall, (r.after cfg codec calls).keys.Perm (puts.map fun p => Spec.storedName p.1) ∧
        (r.after cfg codec calls).keys.Pairwise (· ≤ ·) := by
  obtain ⟨w', c1, -, c3⟩ := writer_reads (newString_inv method e) hm hw hlen hnames
  obtain ⟨r, o1, k1, p1⟩ := c3 _ (ready_ofBytes _)
  rw [Nat.mod_eq_of_lt (b := 2 ^ 16) hcount, List.take_length] at k1
  refine ⟨w', r, c1, o1, fun calls => ?_⟩
  rw [(p1 calls []).2.2, k1]
  exact ⟨sortKeys_perm _, sortKeys_sorted _⟩

example : ∃ w w' r, Writer.writeAll exCfg noCodec exPuts (Writer.newString STORED .little) = (.ok (), w) ∧
    Writer.close w = (.ok (), w') ∧ Reader.open (IStream.ofBytes w'.str) = .ok r ∧
    r.keys.Perm [b!"x.npy", b!"y.npy", b!"x.npy"] := by
  obtain ⟨w, h1, h2⟩ := C30_npz_roundtrip exCfg noCodec .little exPuts exPuts_storable
  have hw : w = (Writer.writeAll exCfg noCodec exPuts (Writer.newString STORED .little)).2 := by rw [h1]
  have hl : w.str.length < 2 ^ 32 := by rw [hw]; decide +kernel
  obtain ⟨w', r, g1, g2, g3⟩ := C37_keys exCfg noCodec STORED (by decide) .little exPuts w h1 hl (by decide) (by decide)
  exact ⟨w, w', r, h1, g1, g2, (g3 []).1⟩

/-- **C38**. On an archive the library wrote, with any codec: what `read` and `peek` return does not depend on the calls made
before, whether those returned or threw. -/
theorem C38_history (cfg : Cfg) (codec : Codec) (method : Nat) (hm : method < 2 ^ 16) (e : Endian) (puts : List (Bytes × AnyTensor))
    (w : Writer) (hw : Writer.writeAll cfg codec puts (Writer.newString method e) = (.ok (), w))
    (hlen : w.str.length < 2 ^ 32) (hnames : ∀ p ∈ puts, (Spec.storedName p.1).length < 65536) :
    ∃ w', Writer.close w = (.ok (), w') ∧
      ∀ s : IStream, s = IStream.ofBytes w'.str ∨ s = IStream.ofFile w'.str → ∃ r, Reader.open s = .ok r ∧
        ∀ (calls : List RdCall) (name : Bytes),
          (∀ (α : Type) (ops : ElemOps α), (Reader.read cfg codec ops name (r.after cfg codec calls)).1 =
            (Reader.read cfg codec ops name r).1) ∧
          (Reader.peek cfg codec name (r.after cfg codec calls)).1 = (Reader.peek cfg codec name r).1 := by
  obtain ⟨w', c1, -, c3⟩ := writer_reads (newString_inv method e) hm hw hlen hnames
  refine ⟨w', c1, ?_⟩
  intro s hs
  have hs' : s.Ready w'.str := by rcases hs with rfl | rfl; exacts [ready_ofBytes _, ready_ofFile _]
  obtain ⟨r, o1, k1, p1⟩ := c3 _ hs'
  refine ⟨r, o1, fun calls name => ?_⟩
  have a := (p1 calls name).1
  have b := (p1 [] name).1
  change (Reader.readFile codec name r).1 = _ at b
  refine ⟨fun α ops => ?_, ?_⟩
  · rw [reader_read_eq, reader_read_eq, a, b]
  · rw [reader_peek_eq, reader_peek_eq, a, b]

/-- **C48**. For every reader, whatever archive it was opened on and whatever has been called on it: if neither `name` nor
`name + ".npy"` is in the archive, `read` and `peek` throw `invalid_argument` and leave the reader as it was. -/
theorem C48_absent (cfg : Cfg) (codec : Codec) (r : Reader) (name : Bytes) (h1 : r.contains name = false)
    (h2 : r.contains (name ++ b!".npy") = false) :
    (∀ (α : Type) (ops : ElemOps α),
      Reader.read cfg codec ops name r = (.error (.throw (.invalidArgument .filename)), r)) ∧
    Reader.peek cfg codec name r = (.error (.throw (.invalidArgument .filename)), r) := by
  unfold Reader.contains at h1 h2
  have h0 : (SM.lift (resolveName r.entries name) : IM Bytes) r.input = (.error (.throw (.invalidArgument .filename)), r.input) := by
    simp only [SM.lift_apply, resolveName, h1, h2]
    rfl
  have hf : Npy.readFile codec r.entries name r.input = (.error (.throw (.invalidArgument .filename)), r.input) := by
    unfold Npy.readFile
    rw [SM.bind_error h0]
  have hr : Reader.readFile codec name r = (.error (.throw (.invalidArgument .filename)), r) := by
    rw [readerReadFile_eq, hf]
  refine ⟨fun α ops => ?_, ?_⟩
  · unfold Reader.read; rw [SM.bind_error hr]
  · unfold Reader.peek; rw [SM.bind_error hr]

example : ∃ w w' r, Writer.writeAll exCfg noCodec exPuts (Writer.newString STORED .little) = (.ok (), w) ∧
    Writer.close w = (.ok (), w') ∧ Reader.open (IStream.ofBytes w'.str) = .ok r ∧
    Reader.read exCfg noCodec wideOps b!"z" r = (.error (.throw (.invalidArgument .filename)), r) := by
  obtain ⟨w, h1, h2⟩ := C30_npz_roundtrip exCfg noCodec .little exPuts exPuts_storable
  have hw : w = (Writer.writeAll exCfg noCodec exPuts (Writer.newString STORED .little)).2 := by rw [h1]
  have hl : w.str.length < 2 ^ 32 := by rw [hw]; decide +kernel
  obtain ⟨w', r, g1, g2, g3⟩ := C36_contains exCfg noCodec STORED (by decide) .little exPuts w h1 hl (by decide) (by decide)
  refine ⟨w, w', r, h1, g1, g2, (C48_absent exCfg noCodec r b!"z" ?_ ?_).1 _ _⟩ <;>
    · rw [← Bool.not_eq_true]
      exact fun hc => absurd (((g3 [] _).1).1 hc) (by decide)

end Npy
