import Verif.Proofs.Exhaust
import Verif.Props.Deflate
import Verif.Props.Device
/-!
# Archives when memory runs out (C79)
-/

namespace Npy
open Spec (savedIn Put memDone Storable)
open Spec.Deflate (SafeSize)

theorem new_memInv (cfg : Cfg) (codec : Codec) (method : Nat) (e : Endian) {w : Writer}
    (hw : w = Writer.newString method e ∨ w = Writer.newFile OStream.empty method e) : MemInv cfg codec method e w [] [] := by
  rcases hw with rfl | rfl
  · exact ⟨OStream.empty_healthy, rfl, rfl, rfl, rfl, by simp, .nil⟩
  · exact ⟨OStream.empty_healthy, rfl, rfl, rfl, rfl, by simp, .nil⟩

/-- **C79** Any history of writes and closes on an archive writer, in which memory may run out in any call at any of the places where
the code allocates, the exceptions being caught: the writer can then be closed; the archive opens; and after any calls on the reader, which
may run out of memory too, `read` gives for each name what `load` gives for the file of the tensor last written under it by a call that
returned, and throws `invalid_argument` if there is none. The file is the one made with the room its string stream had. (For fewer than
65536 such writes, names of fewer than 65536 bytes, an archive under 4 GiB and files the compression method gives back.) -/
theorem C79_map (cfg : Cfg) (codec : Codec) (method : Nat) (hm : method < 2 ^ 16) (e : Endian) (w0 : Writer)
    (hw0 : w0 = Writer.newString method e ∨ w0 = Writer.newFile OStream.empty method e) (calls : List MemCall) :
    let done := memDone (w0.memTrace cfg codec calls)
    ∃ w, Writer.close (w0.memAfter cfg codec calls) = (.ok (), w) ∧
      (w.str.length < 2 ^ 32 → done.length < 65536 → (∀ p ∈ done, (Spec.storedName p.1).length < 65536) →
       (∀ p ∈ done, ∀ f, savedIn cfg p.2.1 e p.2.2 = .ok f → GivesBack codec method f) →
       ∀ s : IStream, s = IStream.ofBytes w.str ∨ s = IStream.ofFile w.str → ∃ r, Reader.open s = .ok r ∧
         r.keys = sortKeys (done.map fun p => Spec.storedName p.1) ∧
         ∀ (reads : List MemRead) (name : Bytes) (α : Type) (ops : ElemOps α),
           (Reader.read cfg codec ops name (r.memAfter cfg codec reads)).1 =
             match Spec.lookup done name with
             | some (t, room) => (savedIn cfg t e room).bind (loadFromString cfg ops)
             | none => .error (.throw (.invalidArgument .filename))) := by
  intro done
  obtain ⟨items, hi⟩ := mem_history (cfg := cfg) (codec := codec) (method := method) (e := e) calls (w := w0) (puts := [])
    ⟨[], .inl (new_memInv cfg codec method e hw0)⟩
  rw [List.nil_append] at hi
  have hclose : ∃ w, Writer.close (w0.memAfter cfg codec calls) = (.ok (), w) ∧ MemArch cfg codec method e w.str done items := by
    rcases hi with hi | ⟨h1, h2⟩
    · obtain ⟨w, c1, -, c3⟩ := hi.close
      exact ⟨w, c1, c3⟩
    · refine ⟨_, ?_, h2⟩
      simp only [Writer.close, h1, if_true]
  obtain ⟨w, c1, c2⟩ := hclose
  refine ⟨w, c1, ?_⟩
  intro hlen hcount hnames hback s hs
  have hs' : s.Ready w.str := by rcases hs with rfl | rfl; exacts [ready_ofBytes _, ready_ofFile _]
  obtain ⟨r, o1, o2, o3⟩ := memArch_reads c2 hm hlen hcount hnames s hs'
  refine ⟨r, o1, o2, ?_⟩
  intro reads name α ops
  rw [reader_read_eq, (o3 reads name).1]
  match hl : Spec.lookup done name with
  | none => rfl
  | some (t, room) =>
    obtain ⟨n, hn⟩ := lookup_mem hl
    simp only []
    match hf : savedIn cfg t e room with
    | .error er => rfl
    | .ok f =>
      have := hback _ hn f hf
      unfold GivesBack at this
      simp only [Except.bind, this]

theorem done_room {cfg : Cfg} {codec : Codec} {calls : List MemCall} (hroom : ∀ t name short, MemCall.write t name short ∈ calls → short.room = none)
    {w : Writer} {p : Put} (hp : p ∈ memDone (w.memTrace cfg codec calls)) : p.2.2 = none := by
  induction calls generalizing w with
  | nil => simp [Writer.memTrace, memDone] at hp
  | cons c calls ih =>
    simp only [Writer.memTrace, memDone, List.flatMap_cons, List.mem_append] at hp
    rcases hp with hp | hp
    · cases c with
      | close stop => simp [Spec.adds] at hp
      | write t name short =>
        unfold Spec.adds at hp
        split at hp
        · rename_i h1 h2
          simp only [MemCall.write.injEq] at h1
          obtain ⟨rfl, rfl, rfl⟩ := h1
          rw [List.mem_singleton.1 hp]
          exact hroom t name short (List.mem_cons_self ..)
        · simp at hp
    · exact ih (fun t name short h => hroom t name short (by simp [h])) hp

/-- **C79** (uncompressed archives) When the string streams of the files have room, whatever else fails: every tensor of which the last
`write` under its name returned is read back unchanged, every other name is refused. -/
theorem C79_stored (cfg : Cfg) (codec : Codec) (e : Endian) (w0 : Writer)
    (hw0 : w0 = Writer.newString STORED e ∨ w0 = Writer.newFile OStream.empty STORED e) (calls : List MemCall)
    (hroom : ∀ t name short, MemCall.write t name short ∈ calls → short.room = none) :
    let done := memDone (w0.memTrace cfg codec calls)
    ∃ w, Writer.close (w0.memAfter cfg codec calls) = (.ok (), w) ∧
      (w.str.length < 2 ^ 32 → done.length < 65536 → (∀ p ∈ done, (Spec.storedName p.1).length < 65536) →
       (∀ p ∈ done, Storable cfg e p.2.1 ∧ ∀ f, saveToString cfg p.2.1.ops p.2.1.x e = .ok f → f.length < 2 ^ 32) →
       ∀ s : IStream, s = IStream.ofBytes w.str ∨ s = IStream.ofFile w.str → ∃ r, Reader.open s = .ok r ∧
         ∀ (reads : List MemRead) (name : Bytes),
           (∀ t, Spec.lookup done name = some t → (Reader.read cfg codec t.1.ops name (r.memAfter cfg codec reads)).1 = .ok t.1.x) ∧
           (Spec.lookup done name = none → ∀ (α : Type) (ops : ElemOps α),
             (Reader.read cfg codec ops name (r.memAfter cfg codec reads)).1 = .error (.throw (.invalidArgument .filename)))) := by
  intro done
  obtain ⟨w, c1, c2⟩ := C79_map cfg codec STORED (by decide) e w0 hw0 calls
  refine ⟨w, c1, fun hlen hcount hnames hfiles s hs => ?_⟩
  have hnone : ∀ p ∈ done, p.2.2 = none := fun p hp => done_room hroom hp
  obtain ⟨r, o1, -, o3⟩ := c2 hlen hcount hnames (fun p hp f hf => by
    rw [hnone p hp] at hf
    exact readBack_stored codec ((hfiles p hp).2 f hf)) s hs
  refine ⟨r, o1, fun reads name => ⟨?_, ?_⟩⟩
  · rintro ⟨t, room⟩ hl
    rw [o3 reads name _ t.ops]
    have hl' : Spec.lookup (memDone (w0.memTrace cfg codec calls)) name = some (t, room) := hl
    rw [hl']
    obtain ⟨n, hn⟩ := lookup_mem hl
    obtain rfl : room = none := hnone _ hn
    obtain ⟨f, h1, h2⟩ := storable_roundtrip (hfiles _ hn).1
    have h3 : savedIn cfg t e none = .ok f := h1
    simp only [h3, Except.bind]
    exact h2
  · intro hl α ops
    rw [o3 reads name α ops]
    have hl' : Spec.lookup (memDone (w0.memTrace cfg codec calls)) name = none := hl
    rw [hl']

/-- **C79** (compressed archives) The same with DEFLATED compression, for files of the sizes `SafeSize`. -/
theorem C79_deflated (cfg : Cfg) (j : Junk) (n : Nat) (hn : 2 ^ 36 ≤ n) (hbig : cfg.nativeBig = false) (e : Endian) (w0 : Writer)
    (hw0 : w0 = Writer.newString DEFLATED e ∨ w0 = Writer.newFile OStream.empty DEFLATED e) (calls : List MemCall)
    (hroom : ∀ t name short, MemCall.write t name short ∈ calls → short.room = none) :
    let done := memDone (w0.memTrace cfg (miniz cfg j n) calls)
    ∃ w, Writer.close (w0.memAfter cfg (miniz cfg j n) calls) = (.ok (), w) ∧
      (w.str.length < 2 ^ 32 → done.length < 65536 → (∀ p ∈ done, (Spec.storedName p.1).length < 65536) →
       (∀ p ∈ done, Storable cfg e p.2.1 ∧ ∀ f, saveToString cfg p.2.1.ops p.2.1.x e = .ok f → SafeSize f.length) →
       ∀ s : IStream, s = IStream.ofBytes w.str ∨ s = IStream.ofFile w.str → ∃ r, Reader.open s = .ok r ∧
         ∀ (reads : List MemRead) (name : Bytes),
           (∀ t, Spec.lookup done name = some t →
             (Reader.read cfg (miniz cfg j n) t.1.ops name (r.memAfter cfg (miniz cfg j n) reads)).1 = .ok t.1.x) ∧
           (Spec.lookup done name = none → ∀ (α : Type) (ops : ElemOps α),
             (Reader.read cfg (miniz cfg j n) ops name (r.memAfter cfg (miniz cfg j n) reads)).1 =
               .error (.throw (.invalidArgument .filename)))) := by
  have hback : ∀ f, SafeSize f.length → GivesBack (miniz cfg j n) DEFLATED f := fun f hf => miniz_givesBack cfg j n hn hbig f hf
  generalize miniz cfg j n = codec at *
  intro done
  obtain ⟨w, c1, c2⟩ := C79_map cfg codec DEFLATED (by decide) e w0 hw0 calls
  refine ⟨w, c1, fun hlen hcount hnames hfiles s hs => ?_⟩
  have hnone : ∀ p ∈ done, p.2.2 = none := fun p hp => done_room hroom hp
  obtain ⟨r, o1, -, o3⟩ := c2 hlen hcount hnames (fun p hp f hf => by
    rw [hnone p hp] at hf
    exact hback f ((hfiles p hp).2 f hf)) s hs
  refine ⟨r, o1, fun reads name => ⟨?_, ?_⟩⟩
  · rintro ⟨t, room⟩ hl
    rw [o3 reads name _ t.ops]
    have hl' : Spec.lookup (memDone (w0.memTrace cfg codec calls)) name = some (t, room) := hl
    rw [hl']
    obtain ⟨n, hn⟩ := lookup_mem hl
    obtain rfl : room = none := hnone _ hn
    obtain ⟨f, h1, h2⟩ := storable_roundtrip (hfiles _ hn).1
    have h3 : savedIn cfg t e none = .ok f := h1
    simp only [h3, Except.bind]
    exact h2
  · intro hl α ops
    rw [o3 reads name α ops]
    have hl' : Spec.lookup (memDone (w0.memTrace cfg codec calls)) name = none := hl
    rw [hl']

/-- How the outcome of a call without shortage appears here. -/
def liftErr {β : Type} : Except Err β → Except MemErr β
  | .ok x => .ok x
  | .error e => .error (.other e)

/-- **C79** With enough memory the calls are those of the other properties: whatever ran out before, a write for which there is memory
does what `Writer.write` does, and a close what `Writer.close` does. -/
theorem C79_plenty (cfg : Cfg) (codec : Codec) (w : Writer) (t : AnyTensor) (name : Bytes) :
    MemCall.run cfg codec w (.write t name ⟨none, .never⟩) =
      (liftErr (Writer.write cfg codec t.ops name t.x w).1, (Writer.write cfg codec t.ops name t.x w).2) ∧
    MemCall.run cfg codec w (.close none) = (liftErr (Writer.close w).1, (Writer.close w).2) := by
  constructor
  · simp only [MemCall.run, Writer.writeShort, Writer.write]
    by_cases hc : w.closed = true
    · rw [if_pos hc, if_pos hc]; rfl
    · rw [if_neg hc, if_neg hc, if_neg (by simp)]
      have : ({ OStream.empty with cap := none } : OStream) = OStream.empty := rfl
      rw [this]
      match save cfg t.ops t.x w.endianness OStream.empty with
      | .error er => rfl
      | .ok out =>
        simp only [Writer.writeFile]
        rw [if_neg hc]
        unfold writeFileShort Npy.writeFile
        by_cases h0 : w.method = STORED
        · simp [h0, liftErr]
        · by_cases h1 : w.method = DEFLATED
          · have hd : DEFLATED ≠ STORED := by decide
            simp only [h1, hd, if_false, if_true, reduceCtorEq]
            match codec.deflate out.buf with
            | .error er => simp only [liftErr, ← h1]
            | .ok d => simp [liftErr]
          · simp [h0, h1, liftErr]
  · simp only [MemCall.run, Writer.closeShort, Option.bind, Writer.close]
    split <;> rfl

/-- **C79** (what happens when a string stream has too little room) `write` returns as usual, and the file put into the archive is the
beginning of the file that should be there. -/
theorem C79_cut (cfg : Cfg) (e : Endian) (t : AnyTensor)
    (ht : (∃ (d : DType) (x : Tensor Elem), t = ⟨Elem, fixedOps d, x⟩) ∨ ∃ x : Tensor WStr, t = ⟨WStr, wideOps, x⟩) (c : Nat) (f : Bytes)
    (hf : saveToString cfg t.ops t.x e = .ok f) : savedIn cfg t e (some c) = .ok (f.take c) := by
  obtain ⟨o', h1, h2⟩ := (C47_save cfg e t ht).2 c f hf
  unfold savedIn
  change (save cfg t.ops t.x e (OStream.limited c)).map (·.buf) = _
  rw [h1, ← h2]
  rfl

/-- Memory for everything but the last five elements of a tensor of six. -/
def exRoom : List MemCall := [.write ⟨Elem, fixedOps .int16, exTensor⟩ b!"x" ⟨some 130, .never⟩, .close none]

/-- **C79** is false of the string streams: `write` and `close` return, the archive reads with no error, and five of the
six elements are other ones. -/
theorem C79_false_silent :
    (Writer.memTrace exCfg noCodec (Writer.newString STORED .little) exRoom).map (·.2) = [.ok (), .ok ()] ∧
    ∃ r, Reader.open (IStream.ofBytes ((Writer.newString STORED .little).memAfter exCfg noCodec exRoom).str) = .ok r ∧
      ((Reader.read exCfg noCodec (fixedOps .int16) b!"x" r).1).map (·.values) = .ok [[1], [0], [0], [0], [0], [0]] ∧
      exTensor.values = [[1], [65535], [256], [32768], [7], [4660]] := by
  have h : ∀ x : Except Err Reader, x.isOk = true → ∃ r, x = .ok r := by
    intro x hx
    cases x with
    | ok r => exact ⟨r, rfl⟩
    | error e => cases hx
  refine ⟨by decide +kernel, ?_⟩
  obtain ⟨r, hr⟩ := h (Reader.open (IStream.ofBytes ((Writer.newString STORED .little).memAfter exCfg noCodec exRoom).str)) (by decide +kernel)
  refine ⟨r, hr, ?_, rfl⟩
  have e1 : ∀ x : Except Err Reader, x = .ok r →
      (x.bind fun r => ((Reader.read exCfg noCodec (fixedOps .int16) b!"x" r).1).map (·.values)) =
        ((Reader.read exCfg noCodec (fixedOps .int16) b!"x" r).1).map (·.values) := by
    rintro x rfl
    rfl
  rw [← e1 _ hr]
  decide +kernel

/-- A history for the theorems above: a write that runs out of memory after its record has been put into the archive, one that runs out
before, one that returns, one under the same name that runs out at the last moment. -/
def exMem : List MemCall :=
  [.write ⟨Elem, fixedOps .float64, exTensor2⟩ b!"x" ⟨none, .push⟩,
   .write ⟨Elem, fixedOps .float64, exTensor2⟩ b!"y" ⟨none, .early⟩,
   .write ⟨Elem, fixedOps .int16, exTensor⟩ b!"x" ⟨none, .never⟩,
   .write ⟨Elem, fixedOps .float64, exTensor2⟩ b!"x" ⟨none, .push⟩]

example : (Writer.memTrace exCfg noCodec (Writer.newString STORED .little) exMem).map (·.2) =
    [.error .badAlloc, .error .badAlloc, .ok (), .error .badAlloc] := by decide +kernel

theorem memTrace_zip (cfg : Cfg) (codec : Codec) (calls : List MemCall) (w : Writer) :
    w.memTrace cfg codec calls = calls.zip ((w.memTrace cfg codec calls).map (·.2)) := by
  induction calls generalizing w with
  | nil => rfl
  | cons c calls ih =>
    simp only [Writer.memTrace, List.map_cons, List.zip_cons_cons]
    rw [← ih]

/-- The theorem applies to it: the one write that returned is what is read, also after a read that ran out of memory. -/
example : ∃ w, Writer.close ((Writer.newString STORED .little).memAfter exCfg noCodec exMem) = (.ok (), w) ∧
    ∃ r, Reader.open (IStream.ofBytes w.str) = .ok r ∧
      (Reader.read exCfg noCodec (fixedOps .int16) b!"x" (r.memAfter exCfg noCodec [.short b!"x" .payload, .call .keys])).1 = .ok exTensor := by
  have hd : memDone (Writer.memTrace exCfg noCodec (Writer.newString STORED .little) exMem) =
      [(b!"x", ⟨Elem, fixedOps .int16, exTensor⟩, none)] := by
    have h : (Writer.memTrace exCfg noCodec (Writer.newString STORED .little) exMem).map (·.2) =
      [.error .badAlloc, .error .badAlloc, .ok (), .error .badAlloc] := by decide +kernel
    rw [memTrace_zip, h]
    rfl
  obtain ⟨w, c1, c2⟩ := C79_stored exCfg noCodec .little (Writer.newString STORED .little) (.inl rfl) exMem (by
    intro t name short h
    simp only [exMem, List.mem_cons, List.not_mem_nil, MemCall.write.injEq, or_false] at h
    rcases h with ⟨-, -, rfl⟩ | ⟨-, -, rfl⟩ | ⟨-, -, rfl⟩ | ⟨-, -, rfl⟩ <;> rfl)
  refine ⟨w, c1, ?_⟩
  have hlen : (Writer.close ((Writer.newString STORED .little).memAfter exCfg noCodec exMem)).2.str.length < 2 ^ 32 := by decide +kernel
  rw [c1] at hlen
  rw [hd] at c2
  have hst := exPuts_storable (b!"x", ⟨Elem, fixedOps .int16, exTensor⟩) (by simp [exPuts])
  obtain ⟨r, o1, o2⟩ := c2 hlen (by decide) (by
      intro p hp
      rw [List.mem_singleton.1 hp]
      decide) (by
      intro p hp
      rw [List.mem_singleton.1 hp]
      refine ⟨hst, fun f hf => ?_⟩
      have hf' : f = (saveToString exCfg (fixedOps .int16) exTensor .little).toOption.getD [] := by
        have : saveToString exCfg (fixedOps .int16) exTensor .little = .ok f := hf
        rw [this]; rfl
      rw [hf']
      decide +kernel) _ (.inl rfl)
  refine ⟨r, o1, ?_⟩
  exact (o2 [.short b!"x" .payload, .call .keys] b!"x").1 (⟨Elem, fixedOps .int16, exTensor⟩, none) rfl

/-- What is left between the directory and the record is in the archive, and does no harm. -/
example : ((Writer.newString STORED .little).memAfter exCfg noCodec exMem).str.length = 3 * 35 + 144 + 140 + 144 ∧
    (memDone (Writer.memTrace exCfg noCodec (Writer.newString STORED .little) exMem)).map (·.1) = [b!"x"] := by decide +kernel

end Npy
