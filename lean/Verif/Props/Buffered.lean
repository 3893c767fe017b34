import Verif.Proofs.Buffered
import Verif.Props.Crash
/-!
# Files behind a stream buffer (C86)

`Model/Fs` and `Model/Program` (C53, C54, C74, C76) let every byte reach the device at once. Here is the same code on streams with a
buffer: the buffer may be of any size, may be emptied at any time, and a device that is full is noticed late or only when the file is
closed.
-/

namespace Npy

/-- **C86**, `save(path, …)`. Whatever the buffer does, whatever the state of the file system, the room on the device and the tensor: the
outcome and all files afterwards are those of a stream without a buffer. -/
theorem C86_save (cfg : Cfg) {α : Type} {ops : ElemOpsB α} (lib : LibOpsB ops) (b : BufPolicy) (x : Tensor α) (e : Endian) (p : Bytes)
    (fs : Fs) : savePathB cfg ops b x e p fs = savePath cfg ops.toElemOps x e p fs := by
  show (savePathB cfg ops b x e p).run fs = (savePath cfg ops.toElemOps x e p).run fs
  unfold savePathB savePath
  simp only []
  cases hw : fs.writable p with
  | false => simp [Fs.openFile, Fs.openOut, hw]
  | true =>
    obtain ⟨⟨-, h1⟩, h2⟩ := openFile_behind fs b p hw
    have h3 : (fs.openOut p).2 = fs.put p [] := by unfold Fs.openOut; rw [if_pos hw]
    have h4 : (fs.openOut p).1.isOpen = true := by unfold Fs.openOut; rw [if_pos hw]
    rw [h1.isOpen, h2, h3, h4]
    simp only [Bool.not_true, Bool.false_eq_true, if_false]
    rw [saveB_eq lib]
    match hs : saveToString cfg ops.toElemOps x e with
    | .error err =>
      have h5 := save_error hs (fs.openOut p).1
      rw [h5]
      simp only [Except.map, put_put]
      rw [h1.close, show (OStream.empty.buf) = [] from rfl, show cutTo fs.room [] = [] by cases fs.room <;> simp [cutTo]]
    | .ok f =>
      obtain ⟨o', h5, h6⟩ := save_openOut lib hs fs p hw
      rw [h5]
      simp only [Except.map, put_put]
      rw [(h1.write f).close, h6]
      rfl

/-- **C86**, `npzfilewriter`. For every sequence of `write` and `close` on a writer on a path, any compression method, any buffer and any
room on the device: the outcomes of the calls and all files after the writer is destroyed are those of a stream without a buffer. -/
theorem C86_archive (cfg : Cfg) (codec : Codec) (b : BufPolicy) (method : Nat) (e : Endian) (p : Bytes) (calls : List WrCall) (fs : Fs) :
    npzWriteScopeB cfg codec b method e p calls fs = npzWriteScope cfg codec method e p calls fs := by
  show (npzWriteScopeB cfg codec b method e p calls).run fs = (npzWriteScope cfg codec method e p calls).run fs
  unfold npzWriteScopeB npzWriteScope
  simp only []
  rw [outcomes_eq cfg codec calls (w := Writer.newFile (fs.openOut p).1 method e) rfl rfl rfl]
  cases hw : fs.writable p with
  | false => simp [Fs.openFile, Fs.openOut, hw]
  | true =>
    have h3 : (fs.openOut p).2 = fs.put p [] := by unfold Fs.openOut; rw [if_pos hw]
    have h4 : (fs.openOut p).1.isOpen = true := by unfold Fs.openOut; rw [if_pos hw]
    obtain ⟨⟨-, h1⟩, h2⟩ := openFile_behind fs b p hw
    rw [h1.isOpen, h2, h3, h4, destroy_eq]
    simp only [if_true, put_put]
    have e1 : (if (FileWriter.after cfg codec (FileWriter.new (fs.openFile b p).1 method e) calls).closed = true then
          FileWriter.after cfg codec (FileWriter.new (fs.openFile b p).1 method e) calls
        else (FileWriter.close (FileWriter.after cfg codec (FileWriter.new (fs.openFile b p).1 method e) calls)).2) =
        FileWriter.after cfg codec (FileWriter.new (fs.openFile b p).1 method e) (calls ++ [.close]) := by
      have : FileWriter.after cfg codec (FileWriter.new (fs.openFile b p).1 method e) (calls ++ [.close]) =
          (FileWriter.close.run (FileWriter.after cfg codec (FileWriter.new (fs.openFile b p).1 method e) calls)).2 := by
        unfold FileWriter.after
        rw [List.foldl_append]
        rfl
      rw [this]
      generalize FileWriter.after cfg codec (FileWriter.new (fs.openFile b p).1 method e) calls = v
      show _ = (FileWriter.close.run v).2
      cases hv : v.closed <;> simp [FileWriter.close, hv]
    rw [e1]
    obtain ⟨h5, h6⟩ := closed_file cfg codec b method e fs p hw (calls ++ [.close])
      (closed_after_close cfg codec _ _ (by simp))
    rw [FileOut.close_closed h6, h5]

/-- **C86**, `close()`. Once `close()` has been called the archive is in the file, complete as far as the device takes it: before the
writer is destroyed, and whatever is called later. -/
theorem C86_closed (cfg : Cfg) (codec : Codec) (b : BufPolicy) (method : Nat) (e : Endian) (p : Bytes) (calls : List WrCall) (fs : Fs)
    (hw : fs.writable p = true) (hc : .close ∈ calls) :
    (FileWriter.after cfg codec (FileWriter.new (fs.openFile b p).1 method e) calls).output.isOpen = false ∧
    (npzWriteScope cfg codec method e p calls fs).2.file p =
      some (FileWriter.after cfg codec (FileWriter.new (fs.openFile b p).1 method e) calls).output.dev := by
  have h1 := closed_after_close cfg codec (Writer.newFile OStream.empty method e) calls hc
  obtain ⟨h5, h6⟩ := closed_file cfg codec b method e fs p hw calls h1
  refine ⟨h6, ?_⟩
  have h4 : (fs.openOut p).1.isOpen = true := by unfold Fs.openOut; rw [if_pos hw]
  show ((npzWriteScope cfg codec method e p calls).run fs).2.file p = _
  unfold npzWriteScope
  simp only []
  rw [h4, if_pos rfl, h5, destroy_eq]
  have e1 : Writer.after cfg codec (Writer.newFile (fs.openOut p).1 method e) (calls ++ [.close]) =
      Writer.after cfg codec (Writer.newFile (fs.openOut p).1 method e) calls := by
    have h7 := closed_after_close cfg codec (Writer.newFile (fs.openOut p).1 method e) calls hc
    have := closed_stays cfg codec _ h7 [.close]
    rw [← this]
    unfold Writer.after
    rw [List.foldl_append]
  rw [e1]
  simp [Fs.put]

/-- **C86**, meanwhile. As long as the writer is alive, what another program finds in the file is a beginning of what the same calls
write without a buffer: one of the states of which C74 says what a reader makes of them. -/
theorem C86_meanwhile (cfg : Cfg) (codec : Codec) (b : BufPolicy) (method : Nat) (e : Endian) (p : Bytes) (calls done : List WrCall)
    (fs : Fs) (hw : fs.writable p = true) (hd : done <+: calls) :
    (FileWriter.after cfg codec (FileWriter.new (fs.openFile b p).1 method e) done).output.dev <+:
      (Writer.after cfg codec (Writer.newFile (fs.openOut p).1 method e) done).output.buf ∧
    ArchiveCrash cfg codec method e p calls fs
      (fs.put p (FileWriter.after cfg codec (FileWriter.new (fs.openFile b p).1 method e) done).output.dev) := by
  have key : (FileWriter.after cfg codec (FileWriter.new (fs.openFile b p).1 method e) done).output.dev <+:
      (Writer.after cfg codec (Writer.newFile (fs.openOut p).1 method e) done).output.buf := by
    obtain ⟨h1, -⟩ := (new_behind fs b p method e hw).calls cfg codec done rfl
    rw [after_openOut cfg codec method e fs p hw done]
    cases hc : (Writer.after cfg codec (Writer.newFile OStream.empty method e) done).closed with
    | false => exact (h1.live hc).1.2.beginning
    | true => rw [(h1.done hc).1]
  refine ⟨key, ?_⟩
  rw [List.prefix_iff_eq_take] at key
  rw [key]
  exact .writing done _ hd (by unfold Fs.openOut; rw [if_pos hw])

/-- **C86**, `save(path, …)` in the middle. `save` gives the stream the bytes of the file one after the other; when it has given it any
number of them, the file holds a beginning of the saved file: one of the states of which C74 says what `load` makes of them. -/
theorem C86_save_meanwhile (cfg : Cfg) {α : Type} {ops : ElemOpsB α} (lib : LibOpsB ops) (b : BufPolicy) (x : Tensor α) (e : Endian)
    (p : Bytes) (fs : Fs) (hw : fs.writable p = true) {f : Bytes} (hf : saveToString cfg ops.toElemOps x e = .ok f) :
    saveB cfg ops x e (fs.openFile b p).1 = .ok ((fs.openFile b p).1.write f) ∧
    ∀ i, ((fs.openFile b p).1.write (f.take i)).dev <+: f.take i ∧
      SaveCrash cfg ops.toElemOps x e p fs (fs.put p ((fs.openFile b p).1.write (f.take i)).dev) := by
  refine ⟨by rw [saveB_eq lib, hf]; rfl, fun i => ?_⟩
  have h1 := ((openFile_behind fs b p hw).1.2.write (f.take i)).beginning
  have h2 : ((fs.openFile b p).1.write (f.take i)).dev <+: cutTo fs.room (f.take i) := h1
  refine ⟨h2.trans (cutTo_prefix _ _), ?_⟩
  obtain ⟨o, g1, g2⟩ := save_openOut lib hf fs p hw
  have h3 : cutTo fs.room (f.take i) <+: o.buf := by
    rw [g2]
    cases fs.room with
    | none => exact List.take_prefix _ _
    | some c =>
      show (f.take i).take c <+: f.take c
      rw [List.take_take, Nat.min_comm, ← List.take_take]
      exact List.take_prefix _ _
  have h4 := h2.trans h3
  rw [List.prefix_iff_eq_take] at h4
  rw [h4]
  exact .writing _ (by unfold Fs.openOut; rw [if_pos hw]) g1

/-! ### Programs -/

theorem C86_step (cfg : Cfg) (codec : Codec) {c : PCall} {fs fs' : Fs} {out : POut} (h : c.StepB cfg codec fs out fs') :
    c.run cfg codec fs = (out, fs') := by
  cases h with
  | save lib b x e p => rw [C86_save cfg lib b x e p fs]; rfl
  | pack b method e p puts _ h =>
    rw [C86_archive] at h
    simp only [PCall.run, h]
  | load k p => rfl
  | peek p => rfl
  | unpack p calls => rfl

/-- **C86**, programs. A program that saves, loads and peeks on paths and opens archives on paths comes to the same outcomes and leaves the
same files whatever the buffers of its streams do. With C76: it works on files as on a map from paths to arrays and archives. -/
theorem C86_programs (cfg : Cfg) (codec : Codec) {calls : List PCall} {fs fs' : Fs} {outs : List POut}
    (h : PCall.RunsB cfg codec calls fs outs fs') :
    outs = PCall.runAll cfg codec calls fs ∧ fs' = PCall.after cfg codec calls fs := by
  induction h with
  | nil => exact ⟨rfl, rfl⟩
  | cons step rest ih =>
    have h1 := C86_step cfg codec step
    refine ⟨?_, ?_⟩
    · rw [PCall.runAll, h1, ih.1]
    · rw [ih.2]
      show _ = PCall.after cfg codec _ (PCall.run cfg codec _ _).2
      rw [h1]

/-- Such runs exist for every program that saves tensors of the library's element types, whatever the buffers. -/
theorem C86_runs (cfg : Cfg) (codec : Codec) (b : BufPolicy) (calls : List PCall) (fs : Fs)
    (hl : ∀ t e p, PCall.save t e p ∈ calls → ∃ (α : Type) (ops : ElemOpsB α) (x : Tensor α), LibOpsB ops ∧ t = ⟨α, ops.toElemOps, x⟩) :
    ∃ outs fs', PCall.RunsB cfg codec calls fs outs fs' := by
  induction calls generalizing fs with
  | nil => exact ⟨[], fs, .nil fs⟩
  | cons c calls ih =>
    have h1 : ∃ out fs', c.StepB cfg codec fs out fs' := by
      cases c with
      | save t e p =>
        obtain ⟨α, ops, x, lib, rfl⟩ := hl t e p (by simp)
        exact ⟨_, _, .save lib b x e p fs⟩
      | load k p => exact ⟨_, _, .load k p fs⟩
      | peek p => exact ⟨_, _, .peek p fs⟩
      | pack method e p puts => exact ⟨_, _, .pack b method e p puts fs rfl⟩
      | unpack p calls => exact ⟨_, _, .unpack p calls fs⟩
    obtain ⟨out, fs', h2⟩ := h1
    obtain ⟨outs, fs2, h3⟩ := ih fs' (fun t e p h => hl t e p (by simp [h]))
    exact ⟨_, _, .cons h2 h3⟩

/-! ### Instances -/

/-- A stream that keeps back up to 8191 bytes. -/
def exBuffer : BufPolicy := ⟨fun _ => 8191, fun _ => b!"junk"⟩

/-- **C86** between `write` and `close` is false: when `write` has returned, the array need not be in the file. Here the file is empty,
and opening it is undefined behaviour (C71); when the writer is gone the array is there. -/
theorem C86_unclosed_false :
    (FileWriter.outcomes exCfg noCodec (FileWriter.new (exFs.openFile exBuffer b!"/b").1 STORED .little)
      [.write ⟨Elem, fixedOps .int16, exTensor⟩ b!"x"]).map (·.isOk) = [true] ∧
    (FileWriter.after exCfg noCodec (FileWriter.new (exFs.openFile exBuffer b!"/b").1 STORED .little)
      [.write ⟨Elem, fixedOps .int16, exTensor⟩ b!"x"]).output.dev = [] ∧
    (npzReadPath b!"/b" (exFs.put b!"/b" [])).1.map (·.keys) = .error .ub ∧
    ((npzReadPath b!"/b" (npzWriteScopeB exCfg noCodec exBuffer STORED .little b!"/b"
      [.write ⟨Elem, fixedOps .int16, exTensor⟩ b!"x"] exFs).2).1.map (·.keys)) = .ok [b!"x.npy"] := by
  refine ⟨?_, ?_, ?_, ?_⟩ <;> decide +kernel

/-- The hypotheses of `C86_runs` are met. -/
example : ∃ outs fs', PCall.RunsB exCfg noCodec
    [.save ⟨Elem, fixedOps .int16, exTensor⟩ .little b!"/b", .load ⟨Elem, fixedOps .int16⟩ b!"/b"] exFs outs fs' := by
  refine C86_runs exCfg noCodec exBuffer _ exFs fun t e p h => ?_
  simp only [List.mem_cons, List.not_mem_nil, or_false, reduceCtorEq] at h
  injection h with h1 h2 h3
  exact ⟨Elem, fixedOpsB .int16, exTensor, .fixed .int16, h1⟩

/-- A device with room for 100 bytes: the buffer hides it until the end, and then nothing is reported. -/
example : (savePathB exCfg (fixedOpsB .int16) exBuffer exTensor .little b!"/b" { exFs with room := some 100 }).1 = .ok () ∧
    ((savePathB exCfg (fixedOpsB .int16) exBuffer exTensor .little b!"/b" { exFs with room := some 100 }).2.file b!"/b").map (·.length) =
      some 100 ∧
    (((Fs.openFile { exFs with room := some 100 } exBuffer b!"/b").1.write (List.replicate 140 7)).bad) = false := by
  refine ⟨?_, ?_, ?_⟩ <;> decide +kernel

end Npy
