import Verif.Model.Fs
import Verif.Props.Device
import Verif.Proofs.Blind
/-!
# Functions that take a path (C53, C54)
-/

namespace Npy
open Spec

theorem Fs.openIn_file {fs : Fs} {p bs : Bytes} (h : fs.file p = some bs) (hr : fs.readable p = true) :
    fs.openIn p = IStream.ofFile bs := by
  unfold Fs.openIn; rw [h, hr]

theorem Fs.openIn_closed {fs : Fs} {p : Bytes} (h : fs.file p = none ∨ fs.readable p = false) :
    (fs.openIn p).isOpen = false := by
  unfold Fs.openIn
  split
  · rename_i h1 h2; rw [h1, h2] at h; simp at h
  · rfl

/-- **C53** Loading and peeking a path are loading and peeking the contents of the file, whatever they are; nothing is
changed. -/
theorem C53_like_streams {α : Type} (cfg : Cfg) (ops : ElemOps α) (ho : LibOps ops) (fs : Fs) (p bytes : Bytes)
    (hf : fs.file p = some bytes) (hr : fs.readable p = true) :
    loadPath cfg ops p fs = (loadFromString cfg ops bytes, fs) ∧
    peekPath cfg p fs = (peekString cfg bytes, fs) := by
  have e1 : (IStream.ofBytes bytes).over bytes true = IStream.ofFile bytes := rfl
  have h1 := blind_load cfg ho (IStream.ofBytes bytes) bytes true
  have h2 := blind_readNpyHeader cfg (IStream.ofBytes bytes) bytes true
  rw [e1] at h1 h2
  unfold loadPath peekPath loadFromString peekString peek
  simp only [Fs.openIn_file hf hr, h1, h2]
  exact ⟨rfl, rfl⟩

/-- **C53** Save to a path, then load the path: for every state of the file system (the file may exist or not), every
tensor that an NPY file can hold, every byte order. The file then holds what `save` gives on a stream, other files are as before, and
`load` gives back the tensor. -/
theorem C53_save_load (cfg : Cfg) (e : Endian) (t : AnyTensor) (ht : Storable cfg e t) (fs : Fs) (p : Bytes)
    (hw : fs.writable p = true) (hr : fs.readable p = true) (hroom : fs.room = none) :
    ∃ fs' bytes, savePath cfg t.ops t.x e p fs = (.ok (), fs') ∧
      saveToString cfg t.ops t.x e = .ok bytes ∧ fs'.file p = some bytes ∧
      (∀ q, q ≠ p → fs'.file q = fs.file q) ∧
      loadPath cfg t.ops p fs' = (.ok t.x, fs') ∧ peekPath cfg p fs' = (peekString cfg bytes, fs') := by
  obtain ⟨f, h1, h2⟩ := storable_roundtrip ht
  have ho : LibOps t.ops := by
    cases ht with
    | fixed dt hd => exact .fixed dt hd
    | wide => exact .wide
  have hopen : fs.openOut p = (OStream.empty, fs.put p []) := by
    unfold Fs.openOut; rw [if_pos hw, hroom]; rfl
  have hs : ∃ o, save cfg t.ops t.x e OStream.empty = .ok o ∧ o.buf = f := by
    unfold saveToString at h1
    match h : save cfg t.ops t.x e OStream.empty with
    | .ok o => rw [h] at h1; exact ⟨o, rfl, by simpa [Except.map] using h1⟩
    | .error er => rw [h] at h1; simp [Except.map] at h1
  obtain ⟨o, hs1, hs2⟩ := hs
  have hfile : ((fs.put p []).put p f).file p = some f := by simp [Fs.put]
  have hl := C53_like_streams cfg t.ops ho ((fs.put p []).put p f) p f hfile hr
  refine ⟨(fs.put p []).put p f, f, ?_, h1, hfile, ?_, ?_, hl.2⟩
  · unfold savePath
    simp only [hopen, hs1, hs2]
    rfl
  · intro q hq; simp [Fs.put, hq]
  · rw [hl.1, h2]

/-- **C53** A path that cannot be opened: `save` throws `invalid_argument` and no file is touched; the same for `load` and
`peek` when the file is absent or cannot be read. -/
theorem C53_unopened {α : Type} (cfg : Cfg) (ops : ElemOps α) (x : Tensor α) (e : Endian) (fs : Fs) (p : Bytes) :
    (fs.writable p = false → savePath cfg ops x e p fs = (.error (.throw (.invalidArgument .path)), fs)) ∧
    (fs.file p = none ∨ fs.readable p = false →
      loadPath cfg ops p fs = (.error (.throw (.invalidArgument .path)), fs) ∧
      peekPath cfg p fs = (.error (.throw (.invalidArgument .path)), fs)) := by
  refine ⟨fun h => ?_, fun h => ?_⟩
  · unfold savePath Fs.openOut
    simp [h]
  · unfold loadPath peekPath
    simp [Fs.openIn_closed h]

/-- **C53** A save that throws (the tensor's `dtype` throws: never for the tensors of the library that C53_save_load covers, but a user's
tensor class can): the exception is the one `save` throws on a stream, and the file, which was opened before, is left
empty, whatever it held; other files are as before. -/
theorem C53_failed_save {α : Type} (cfg : Cfg) (ops : ElemOps α) (x : Tensor α) (e : Endian) (fs : Fs) (p : Bytes)
    (hw : fs.writable p = true) (err : Err) (h : saveToString cfg ops x e = .error err) :
    ∃ fs', savePath cfg ops x e p fs = (.error err, fs') ∧ fs'.file p = some [] ∧ ∀ q, q ≠ p → fs'.file q = fs.file q := by
  refine ⟨fs.put p [], ?_, by simp [Fs.put], fun q hq => by simp [Fs.put, hq]⟩
  have hs : ∀ o, save cfg ops x e o = .error err := by
    intro o
    unfold saveToString save at h
    unfold save
    match hd : ops.dtypeStr cfg e x.values with
    | .error er => rw [hd] at h; simpa [Except.map] using h
    | .ok d => rw [hd] at h; simp [Except.map] at h
  unfold savePath Fs.openOut
  simp only [hw, if_true, hs]
  rfl

/-- A file system with one file. -/
def exFs : Fs :=
  { file := fun q => if q = b!"/a" then some [1, 2, 3] else none
    readable := fun _ => true
    writable := fun q => q ≠ b!"/dev/x"
    room := none }

example : ∃ fs', savePath exCfg (fixedOps .int16) exTensor .little b!"/b" exFs = (.ok (), fs') ∧
    loadPath exCfg (fixedOps .int16) b!"/b" fs' = (.ok exTensor, fs') ∧ fs'.file b!"/a" = some [1, 2, 3] := by
  obtain ⟨fs', bytes, h1, -, -, h4, h5, -⟩ := C53_save_load exCfg .little ⟨Elem, fixedOps .int16, exTensor⟩
    (exPuts_storable (b!"x", ⟨Elem, fixedOps .int16, exTensor⟩) (by simp [exPuts])) exFs b!"/b" rfl rfl rfl
  exact ⟨fs', h1, h5, by rw [h4 b!"/a" (by decide)]; rfl⟩

example : savePath exCfg (fixedOps .int16) exTensor .little b!"/dev/x" exFs = (.error (.throw (.invalidArgument .path)), exFs) ∧
    loadPath exCfg (fixedOps .int16) b!"/c" exFs = (.error (.throw (.invalidArgument .path)), exFs) :=
  ⟨(C53_unopened ..).1 rfl, ((C53_unopened exCfg (fixedOps .int16) exTensor .little exFs b!"/c").2 (.inl rfl)).1⟩

/-- A tensor whose dtype has no string: the file it should replace is gone. -/
example : ∃ fs', savePath exCfg (fixedOps .unicode) exTensor .little b!"/a" exFs = (.error (.throw (.invalidArgument .uDtype)), fs') ∧
    fs'.file b!"/a" = some [] := by
  obtain ⟨fs', h1, h2, -⟩ := C53_failed_save exCfg (fixedOps .unicode) exTensor .little exFs b!"/a" rfl
    (.throw (.invalidArgument .uDtype)) rfl
  exact ⟨fs', h1, h2⟩

/-! ### Archives on paths -/

theorem writeAll_after (cfg : Cfg) (codec : Codec) (puts : List (Bytes × AnyTensor)) {w w' : Writer}
    (h : Writer.writeAll cfg codec puts w = (.ok (), w')) :
    Writer.after cfg codec w (puts.map fun p => .write p.2 p.1) = w' ∧
    ∀ r ∈ (Writer.trace cfg codec w (puts.map fun p => .write p.2 p.1)).map (·.2), r = .ok () := by
  induction puts generalizing w with
  | nil =>
    unfold Writer.writeAll at h
    simp only [SM.pure_apply, Prod.mk.injEq, true_and] at h
    subst h
    exact ⟨rfl, by simp [Writer.trace]⟩
  | cons p puts ih =>
    obtain ⟨name, t⟩ := p
    unfold Writer.writeAll at h
    obtain ⟨u, w1, h1, h2⟩ := SM.of_bind_ok h
    obtain ⟨a1, a2⟩ := ih h2
    have e : (WrCall.run cfg codec w (.write t name)) = (.ok (), w1) := h1
    constructor
    · simp only [Writer.after, List.map_cons, List.foldl_cons, e]
      exact a1
    · intro r hr
      simp only [List.map_cons, Writer.trace, e, List.mem_cons] at hr
      rcases hr with rfl | hr
      · rfl
      · exact a2 r hr

theorem after_snoc (cfg : Cfg) (codec : Codec) (w : Writer) (calls : List WrCall) (c : WrCall) :
    Writer.after cfg codec w (calls ++ [c]) = (c.run cfg codec (Writer.after cfg codec w calls)).2 := by
  simp [Writer.after]

theorem destroy_eq_close (w : Writer) : (Writer.destroy w).2 = (Writer.close w).2 := by
  unfold Writer.destroy Writer.close
  cases h : w.closed <;> simp [h]

/-- **C54** (what does hold) Tensors written to an archive on a path are read back from the path: every name gives the
tensor most recently written under it, in every state of the file system in which the path can be opened; other files
are as before. Limits as in C30. -/
theorem C54_path_roundtrip (cfg : Cfg) (codec : Codec) (e : Endian) (puts : List (Bytes × AnyTensor))
    (hok : ∀ p ∈ puts, Storable cfg e p.2) (fs : Fs) (path : Bytes)
    (hw : fs.writable path = true) (hr : fs.readable path = true) (hroom : fs.room = none)
    (hcount : puts.length < 65536) (hnames : ∀ p ∈ puts, (Spec.storedName p.1).length < 65536)
    (hfiles : ∀ p ∈ puts, ∀ f, saveToString cfg p.2.ops p.2.x e = .ok f → f.length < 2 ^ 32)
    (hlen : (Writer.writeAll cfg codec puts (Writer.newString STORED e)).2.str.length < 2 ^ 32) :
    ∃ outcomes fs', npzWriteScope cfg codec STORED e path (puts.map fun p => .write p.2 p.1) fs = (.ok outcomes, fs') ∧
      (∀ r ∈ outcomes, r = .ok ()) ∧ (∀ q, q ≠ path → fs'.file q = fs.file q) ∧
      ∃ r, npzReadPath path fs' = (.ok r, fs') ∧
        ∀ (calls : List RdCall) (name : Bytes) (t : AnyTensor), Spec.lookup puts name = some t →
          (Reader.read cfg codec t.ops name (r.after cfg codec calls)).1 = .ok t.x := by
  obtain ⟨w, h1, h2⟩ := C30_npz_roundtrip cfg codec e puts hok
  rw [h1] at hlen
  obtain ⟨w', h3, h4⟩ := h2 hlen hcount hnames hfiles
  obtain ⟨r, h5, h6⟩ := h4 _ (.inr rfl)
  have hopen : fs.openOut path = (OStream.empty, fs.put path []) := by
    unfold Fs.openOut; rw [if_pos hw, hroom]; rfl
  obtain ⟨a1, a2⟩ := writeAll_after cfg codec puts h1
  have e1 := (C34_writers cfg codec STORED e (puts.map fun p => .write p.2 p.1)).1
  have e2 := (C34_writers cfg codec STORED e ((puts.map fun p => .write p.2 p.1) ++ [.close])).2
  rw [after_snoc, after_snoc, a1] at e2
  have e3 : (WrCall.run cfg codec w .close).2 = w' := by show (Writer.close w).2 = w'; rw [h3]
  rw [e3] at e2
  have e4 : (Writer.destroy (Writer.after cfg codec (Writer.newFile OStream.empty STORED e)
      (puts.map fun p => .write p.2 p.1))).2.output.buf = w'.str := by
    rw [destroy_eq_close]; exact e2.symm
  refine ⟨(Writer.trace cfg codec (Writer.newFile OStream.empty STORED e) (puts.map fun p => .write p.2 p.1)).map (·.2),
    (fs.put path []).put path w'.str, ?_, ?_, ?_, r, ?_, h6⟩
  · unfold npzWriteScope
    simp only [hopen, e4]
    rfl
  · rw [← e1]; exact a2
  · intro q hq; simp [Fs.put, hq]
  · unfold npzReadPath
    simp only []
    rw [Fs.openIn_file (bs := w'.str) (by simp [Fs.put]) (by exact hr), h5]

example : ∃ outcomes fs' r, npzWriteScope exCfg noCodec STORED .little b!"/a" (exPuts.map fun p => .write p.2 p.1) exFs =
      (.ok outcomes, fs') ∧ npzReadPath b!"/a" fs' = (.ok r, fs') ∧
      (Reader.read exCfg noCodec wideOps b!"y" r).1 = .ok exWide := by
  obtain ⟨out, fs', h1, -, -, r, h2, h3⟩ := C54_path_roundtrip exCfg noCodec .little exPuts exPuts_storable exFs b!"/a" rfl rfl rfl
    (by decide) (by decide) exPuts_files (by decide +kernel)
  exact ⟨out, fs', r, h1, h2, h3 [] b!"y" ⟨WStr, wideOps, exWide⟩ rfl⟩

/-- **C54** An archive reader on a path that is absent or unreadable throws `invalid_argument`. -/
theorem C54_reader_unopened (fs : Fs) (p : Bytes) (h : fs.file p = none ∨ fs.readable p = false) :
    npzReadPath p fs = (.error (.throw (.invalidArgument .fileNotFound)), fs) := by
  unfold npzReadPath Reader.open
  simp [Fs.openIn_closed h]

/-- **C54** (what happens instead) An archive writer on a path that cannot be opened: whatever the calls, each returns or
throws exactly as if the file had been opened and the disk were large enough, and nothing is stored. -/
theorem C54_writer_unopened (cfg : Cfg) (codec : Codec) (method : Nat) (e : Endian) (fs : Fs) (p : Bytes)
    (h : fs.writable p = false) (calls : List WrCall) :
    npzWriteScope cfg codec method e p calls fs =
      (.ok ((Writer.trace cfg codec (Writer.newFile OStream.empty method e) calls).map (·.2)), fs) := by
  unfold npzWriteScope Fs.openOut
  simp only [h, Bool.false_eq_true, if_false]
  rw [C47_outcomes cfg codec method e _ OStream.empty]

/-- **C54** is false for writers: writing a tensor to an archive on a path that cannot be opened returns normally, as does
`close()`. -/
theorem C54_writer_false : npzWriteScope exCfg noCodec STORED .little b!"/dev/x" exCalls exFs = (.ok [.ok (), .ok ()], exFs) := by
  rw [C54_writer_unopened _ _ _ _ _ _ rfl, ← C47_outcomes exCfg noCodec STORED .little (OStream.limited 100), exCalls_ok]

example : npzReadPath b!"/c" exFs = (.error (.throw (.invalidArgument .fileNotFound)), exFs) :=
  C54_reader_unopened _ _ (.inl rfl)

end Npy
