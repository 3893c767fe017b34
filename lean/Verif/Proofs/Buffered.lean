import Verif.Model.Buffered
import Verif.Props.Device
import Verif.Proofs.Blind
import Verif.Props.Fs
/-!
# Streams with a buffer and streams without
-/

namespace Npy

/-- What of the bytes fits on a device. -/
def cutTo (c : Option Nat) (bs : Bytes) : Bytes := match c with | none => bs | some n => bs.take n

theorem cutTo_le {c : Option Nat} {bs : Bytes} (h : ∀ n, c = some n → bs.length ≤ n) : cutTo c bs = bs := by
  cases c with
  | none => rfl
  | some n => exact List.take_of_length_le (h n rfl)

theorem cutTo_prefix (c : Option Nat) (bs : Bytes) : cutTo c bs <+: bs := by
  cases c with
  | none => exact List.prefix_rfl
  | some n => exact List.take_prefix _ _

/-- The buffered stream `b`, on a device for `c` bytes, has been given the bytes `bs`. -/
structure Behind (c : Option Nat) (b : FileOut) (bs : Bytes) : Prop where
  isOpen : b.isOpen = true
  cap : b.cap = c
  good : b.bad = false → b.dev ++ b.pend = bs ∧ ∀ n, c = some n → b.dev.length ≤ n
  lost : b.bad = true → ∃ n, c = some n ∧ n < bs.length ∧ b.dev = bs.take n

/-- What is in the file is a beginning of what was given to the stream. -/
theorem Behind.beginning {c : Option Nat} {b : FileOut} {bs : Bytes} (h : Behind c b bs) : b.dev <+: cutTo c bs := by
  cases hb : b.bad with
  | false =>
    obtain ⟨h1, h2⟩ := h.good hb
    cases c with
    | none => exact ⟨_, h1⟩
    | some n =>
      refine ⟨b.pend.take (n - b.dev.length), ?_⟩
      show _ = bs.take n
      rw [← h1, List.take_append, List.take_of_length_le (h2 n rfl)]
  | true =>
    obtain ⟨n, h1, -, h3⟩ := h.lost hb
    rw [h1, h3]
    exact List.prefix_rfl

theorem FileOut.flush_isOpen (k : Nat) (o : FileOut) : (o.flush k).isOpen = o.isOpen := by
  unfold FileOut.flush; cases o.cap with
  | none => rfl
  | some c => simp only []; split <;> rfl

theorem FileOut.flush_cap (k : Nat) (o : FileOut) : (o.flush k).cap = o.cap := by
  unfold FileOut.flush; cases o.cap with
  | none => rfl
  | some c => simp only []; split <;> rfl

/-- Emptying the buffer of a stream that is not bad. -/
theorem Behind.flush {c : Option Nat} {b : FileOut} {bs : Bytes} (h : Behind c b bs) (hb : b.bad = false) (k : Nat) :
    Behind c (b.flush k) bs := by
  obtain ⟨h1, h2⟩ := h.good hb
  have key : b.dev ++ b.pend.take (b.pend.length - k) ++ b.pend.drop (b.pend.length - k) = bs := by
    rw [List.append_assoc, List.take_append_drop, h1]
  have hi : (b.flush k).isOpen = true := by rw [FileOut.flush_isOpen, h.isOpen]
  have hc : (b.flush k).cap = c := by rw [FileOut.flush_cap, h.cap]
  revert hi hc
  unfold FileOut.flush
  rw [h.cap]
  match c with
  | none => exact fun hi hc => ⟨hi, hc, fun _ => ⟨key, fun n hn => by cases hn⟩, fun hl => by simp only at hl; rw [hb] at hl; cases hl⟩
  | some n =>
    simp only []
    split
    · rename_i hf
      refine fun hi hc => ⟨hi, hc, fun _ => ⟨key, fun m hm => ?_⟩, fun hl => by simp only at hl; rw [hb] at hl; cases hl⟩
      cases hm
      rw [List.length_append]
      exact hf
    · rename_i hf
      refine fun hi hc => ⟨hi, hc, fun hg => by simp at hg, fun _ => ⟨n, rfl, ?_, ?_⟩⟩
      · rw [← key]; simp only [List.length_append] at hf ⊢; omega
      · rw [← key]
        exact (List.take_append_of_le_length (by rw [List.length_append]; omega)).symm

theorem Behind.put {c : Option Nat} {b : FileOut} {bs : Bytes} (h : Behind c b bs) (x : Byte) : Behind c (b.put x) (bs ++ [x]) := by
  unfold FileOut.put
  cases hb : b.bad with
  | true =>
    simp only [Bool.true_or, if_true]
    refine ⟨h.isOpen, h.cap, fun hg => by simp at hg, fun _ => ?_⟩
    obtain ⟨n, h1, h2, h3⟩ := h.lost hb
    refine ⟨n, h1, by rw [List.length_append]; omega, ?_⟩
    rw [List.take_append_of_le_length (by omega)]
    exact h3
  | false =>
    have hq : (false || !b.isOpen) = false := by rw [h.isOpen]; rfl
    rw [if_neg (by rw [hq]; decide)]
    obtain ⟨h1, h2⟩ := h.good hb
    have h3 : Behind c { b with pend := b.pend ++ [x], calls := b.calls + 1 } (bs ++ [x]) :=
      ⟨h.isOpen, h.cap, fun _ => ⟨by show b.dev ++ (b.pend ++ [x]) = bs ++ [x]; rw [← List.append_assoc, h1], h2⟩,
        fun hl => by simp only at hl; rw [hb] at hl; cases hl⟩
    have h4 := h3.flush hb (b.keep b.calls)
    simp only [hb] at h4
    exact h4

theorem Behind.write {c : Option Nat} {b : FileOut} {bs : Bytes} (h : Behind c b bs) (xs : Bytes) :
    Behind c (b.write xs) (bs ++ xs) := by
  induction xs generalizing b bs with
  | nil => rw [List.append_nil]; exact h
  | cons x xs ih =>
    have := ih (h.put x)
    rw [List.append_assoc] at this
    exact this

theorem FileOut.write_bad {b : FileOut} (hb : b.bad = true) (xs : Bytes) : b.write xs = b := by
  induction xs with
  | nil => rfl
  | cons x xs ih =>
    have : b.put x = b := by
      cases b
      simp only at hb
      subst hb
      simp [FileOut.put]
    show (b.put x).write xs = b
    rw [this]
    exact ih

/-- Once something was lost it does not matter what is written. -/
theorem Behind.write_lost {c : Option Nat} {b : FileOut} {bs : Bytes} (h : Behind c b bs) (hb : b.bad = true) (xs ys : Bytes) :
    Behind c (b.write xs) (bs ++ ys) ∧ (b.write xs).bad = true := by
  have h1 := h.write ys
  rw [FileOut.write_bad hb] at h1 ⊢
  exact ⟨h1, hb⟩

/-- After closing, the file holds what fits on the device of all that was given to the stream. -/
theorem Behind.close {c : Option Nat} {b : FileOut} {bs : Bytes} (h : Behind c b bs) : b.close.dev = cutTo c bs := by
  unfold FileOut.close
  rw [if_pos h.isOpen]
  show (b.flush 0).dev = cutTo c bs
  cases hb : b.bad with
  | true =>
    obtain ⟨n, h1, h2, h3⟩ := h.lost hb
    have hl : b.dev.length = n := by rw [h3, List.length_take]; omega
    unfold FileOut.flush
    rw [h.cap, h1]
    simp only [Nat.sub_zero, List.take_length, List.drop_length]
    show _ = bs.take n
    split
    · rename_i hf
      have : b.pend.length = 0 := by omega
      show b.dev ++ b.pend = _
      rw [List.eq_nil_of_length_eq_zero this, List.append_nil, h3]
    · show (b.dev ++ b.pend).take n = _
      rw [List.take_append_of_le_length (by omega), List.take_of_length_le (by omega), h3]
  | false =>
    have h1 := h.flush hb 0
    cases hb2 : (b.flush 0).bad with
    | true =>
      obtain ⟨n, g1, -, g3⟩ := h1.lost hb2
      rw [g1, g3]
      rfl
    | false =>
      obtain ⟨g1, g2⟩ := h1.good hb2
      have hp : (b.flush 0).pend = [] := by
        revert hb2
        unfold FileOut.flush
        simp only [Nat.sub_zero, List.drop_length]
        cases b.cap with
        | none => exact fun _ => rfl
        | some m =>
          simp only []
          split
          · exact fun _ => rfl
          · exact fun hb2 => by cases hb2
      rw [hp, List.append_nil] at g1
      rw [g1, cutTo_le (by rw [← g1]; exact g2)]

theorem Behind.tellp {c : Option Nat} {b : FileOut} {bs : Bytes} (h : Behind c b bs) (hb : b.bad = false) :
    b.tellp32 = bs.length % 2 ^ 32 := by
  unfold FileOut.tellp32
  rw [hb, h.isOpen, ← (h.good hb).1, List.length_append]
  rfl

/-! ### `save` -/

theorem FileOut.write_append (b : FileOut) (xs ys : Bytes) : b.write (xs ++ ys) = (b.write xs).write ys := List.foldl_append ..

/-- The buffered stream `b` has been given what the unlimited one has been given; it was `b0` before. -/
def WrittenOf (b0 b : FileOut) (o : OStream) : Prop := o.Healthy ∧ b = b0.write o.buf

theorem WrittenOf.write {b0 b : FileOut} {o : OStream} (h : WrittenOf b0 b o) (xs : Bytes) :
    WrittenOf b0 (b.write xs) (o.write xs) := by
  rw [OStream.write_healthy h.1]
  exact ⟨OStream.healthy_buf h.1 _, by rw [h.2, ← FileOut.write_append]⟩

theorem WrittenOf.foldl {α : Type} {b0 : FileOut} {f : FileOut → α → FileOut} {g : OStream → α → OStream}
    (hf : ∀ b o x, WrittenOf b0 b o → WrittenOf b0 (f b x) (g o x)) (xs : List α) {b : FileOut} {o : OStream}
    (h : WrittenOf b0 b o) : WrittenOf b0 (xs.foldl f b) (xs.foldl g o) := by
  induction xs generalizing b o with
  | nil => exact h
  | cons x xs ih => exact ih (hf _ _ _ h)

theorem written_header {b0 b : FileOut} {o : OStream} (h : WrittenOf b0 b o) (d : Bytes) (f : Bool) (sh : List Nat) :
    WrittenOf b0 (writeNpyHeaderB b d f sh) (writeNpyHeader o d f sh) := ((h.write _).write _).write _

theorem written_values {α : Type} {ops : ElemOpsB α} (lib : LibOpsB ops) {b0 b : FileOut} {o : OStream}
    (h : WrittenOf b0 b o) (cfg : Cfg) (e : Endian) (vals : List α) :
    WrittenOf b0 (ops.writeB cfg e vals b) (ops.write cfg e vals o) := by
  cases lib with
  | fixed t =>
    show WrittenOf b0 (writeFixedB cfg t e vals b) (writeFixed cfg t e vals o)
    unfold writeFixedB writeFixed
    split
    · exact h.write _
    · refine WrittenOf.foldl (fun b o x h => ?_) _ h
      exact h.write _
  | wide =>
    show WrittenOf b0 (writeWideB cfg e vals b) (writeWide cfg e vals o)
    unfold writeWideB writeWide
    refine WrittenOf.foldl (fun b o x h => ?_) _ h
    have h2 : WrittenOf b0 (x.foldl (fun o c => o.write (writeUnit cfg e c)) b) (x.foldl (fun o c => o.write (writeUnit cfg e c)) o) := by
      refine WrittenOf.foldl (fun b o x h => ?_) _ h
      exact h.write _
    refine WrittenOf.foldl (fun b o x h => ?_) _ h2
    exact h.write _

/-- `save` on a buffered stream gives it the bytes of the file, and throws when it throws on a string stream. -/
theorem saveB_eq {α : Type} {ops : ElemOpsB α} (lib : LibOpsB ops) (cfg : Cfg) (x : Tensor α) (e : Endian) (b : FileOut) :
    saveB cfg ops x e b = (saveToString cfg ops.toElemOps x e).map b.write := by
  unfold saveB saveToString save
  match ops.dtypeStr cfg e x.values with
  | .error err => rfl
  | .ok d =>
    simp only [Except.map, Except.ok.injEq]
    exact (written_values lib (written_header ⟨OStream.empty_healthy, rfl⟩ d x.fortranOrder x.shape) cfg e x.values).2

/-- The buffered stream has been given what the unlimited one has been given, and is on a device for `c` bytes. -/
def BehindOf (c : Option Nat) (b : FileOut) (o : OStream) : Prop := o.Healthy ∧ Behind c b o.buf

theorem BehindOf.write {c : Option Nat} {b : FileOut} {o : OStream} (h : BehindOf c b o) (xs : Bytes) :
    BehindOf c (b.write xs) (o.write xs) := by
  rw [OStream.write_healthy h.1]
  exact ⟨OStream.healthy_buf h.1 _, h.2.write xs⟩

theorem BehindOf.foldl {α : Type} {c : Option Nat} {f : FileOut → α → FileOut} {g : OStream → α → OStream}
    (hf : ∀ b o x, BehindOf c b o → BehindOf c (f b x) (g o x)) (xs : List α) {b : FileOut} {o : OStream} (h : BehindOf c b o) :
    BehindOf c (xs.foldl f b) (xs.foldl g o) := by
  induction xs generalizing b o with
  | nil => exact h
  | cons x xs ih => exact ih (hf _ _ _ h)

/-- A new file. -/
theorem openFile_behind (fs : Fs) (b : BufPolicy) (p : Bytes) (hw : fs.writable p = true) :
    BehindOf fs.room (fs.openFile b p).1 OStream.empty ∧ (fs.openFile b p).2 = fs.put p [] := by
  unfold Fs.openFile
  rw [if_pos hw]
  exact ⟨⟨OStream.empty_healthy, ⟨rfl, rfl, fun _ => ⟨rfl, fun n _ => Nat.zero_le n⟩, fun h => by cases h⟩⟩, rfl⟩

theorem openOut_limited (fs : Fs) (p : Bytes) (hw : fs.writable p = true) :
    (fs.openOut p).1 = (match fs.room with | none => OStream.empty | some c => OStream.limited c) := by
  unfold Fs.openOut
  rw [if_pos hw]
  cases fs.room <;> rfl

theorem put_put (fs : Fs) (p a b : Bytes) : (fs.put p a).put p b = fs.put p b := by
  unfold Fs.put
  congr 1
  funext q
  by_cases h : q = p <;> simp [h]

theorem save_error {α : Type} {ops : ElemOps α} {cfg : Cfg} {x : Tensor α} {e : Endian} {err : Err}
    (h : saveToString cfg ops x e = .error err) (o : OStream) : save cfg ops x e o = .error err := by
  unfold saveToString save at h
  unfold save
  match hd : ops.dtypeStr cfg e x.values with
  | .error er => rw [hd] at h; simpa [Except.map] using h
  | .ok d => rw [hd] at h; simp [Except.map] at h

/-- `save` on a new file without a buffer. -/
theorem save_openOut {α : Type} {ops : ElemOpsB α} (lib : LibOpsB ops) {cfg : Cfg} {x : Tensor α} {e : Endian} {f : Bytes}
    (h : saveToString cfg ops.toElemOps x e = .ok f) (fs : Fs) (p : Bytes) (hw : fs.writable p = true) :
    ∃ o, save cfg ops.toElemOps x e (fs.openOut p).1 = .ok o ∧ o.buf = cutTo fs.room f := by
  rw [openOut_limited fs p hw]
  match fs.room with
  | none =>
    unfold saveToString at h
    match hs : save cfg ops.toElemOps x e OStream.empty with
    | .error er => rw [hs] at h; simp [Except.map] at h
    | .ok o =>
      rw [hs] at h
      simp only [Except.map, Except.ok.injEq] at h
      exact ⟨o, rfl, h⟩
  | some c =>
    refine (C47_save cfg e ⟨α, ops.toElemOps, x⟩ ?_).2 c f h
    cases lib with
    | fixed t => exact .inl ⟨t, x, rfl⟩
    | wide => exact .inr ⟨x, rfl⟩

/-! ### Archives -/

/-- A writer on a buffered stream and one on an unlimited stream without a buffer, after the same calls. -/
structure BehindWriter (c : Option Nat) (a : FileWriter) (w : Writer) : Prop where
  closed : a.closed = w.closed
  method : a.method = w.method
  endianness : a.endianness = w.endianness
  live : w.closed = false → BehindOf c a.output w.output ∧ (a.output.bad = false → a.entries = w.entries)
  done : w.closed = true → a.output.dev = cutTo c w.output.buf ∧ a.output.isOpen = false

theorem behind_entries {c : Option Nat} (es es' : List FileEntry) {b : FileOut} {o : OStream} (h : BehindOf c b o)
    (hes : b.bad = false → es = es') :
    BehindOf c (es.foldl (fun o h => o.write (centralHeader h)) b) (es'.foldl (fun o h => o.write (centralHeader h)) o) ∧
    (b.bad = true → (es.foldl (fun o h => o.write (centralHeader h)) b).bad = true) := by
  cases hb : b.bad with
  | false =>
    rw [hes hb]
    refine ⟨?_, fun h => by cases h⟩
    refine BehindOf.foldl (fun b o x h => ?_) _ h
    exact h.write _
  | true =>
    have e1 : es.foldl (fun o h => o.write (centralHeader h)) b = b := by
      clear hes
      induction es with
      | nil => rfl
      | cons e es ih =>
        rw [List.foldl_cons, FileOut.write_bad hb]
        exact ih
    rw [e1]
    refine ⟨?_, fun _ => hb⟩
    clear e1 hes
    induction es' generalizing o with
    | nil => exact h
    | cons e es ih =>
      have h2 := h.write (centralHeader e)
      rw [FileOut.write_bad hb] at h2
      exact ih h2

theorem behind_closeArchive {c : Option Nat} {es es' : List FileEntry} {b : FileOut} {o : OStream} (h : BehindOf c b o)
    (hes : b.bad = false → es = es') : BehindOf c (closeArchiveB es b) (closeArchive es' o) := by
  obtain ⟨h1, h2⟩ := behind_entries es es' h hes
  unfold closeArchiveB closeArchive
  simp only []
  cases hb : (es.foldl (fun o h => o.write (centralHeader h)) b).bad with
  | false =>
    have hb0 : b.bad = false := by
      cases hb0 : b.bad with
      | false => rfl
      | true => rw [h2 hb0] at hb; cases hb
    rw [h1.2.tellp hb, h.2.tellp hb0, ← OStream.tellp32_healthy h1.1, ← OStream.tellp32_healthy h.1]
    rw [hes hb0] at h1 ⊢
    exact h1.write _
  | true =>
    rw [OStream.write_healthy h1.1]
    exact ⟨OStream.healthy_buf h1.1 _, (h1.2.write_lost hb _ _).1⟩

theorem BehindWriter.call {c : Option Nat} {a : FileWriter} {w : Writer} (h : BehindWriter c a w) (hf : w.isFile = true) (cfg : Cfg)
    (codec : Codec) (call : WrCall) :
    (call.runB cfg codec a).1 = (call.run cfg codec w).1 ∧ BehindWriter c (call.runB cfg codec a).2 (call.run cfg codec w).2 ∧
    (call.run cfg codec w).2.isFile = true := by
  cases hc : w.closed with
  | true =>
    have hc' : a.closed = true := by rw [h.closed, hc]
    cases call with
    | write t name => simp [WrCall.runB, WrCall.run, Writer.write, FileWriter.write, hc, hc', h, hf]
    | close => simp [WrCall.runB, WrCall.run, Writer.close, FileWriter.close, hc, hc', h, hf]
  | false =>
    have hc' : a.closed = false := by rw [h.closed, hc]
    obtain ⟨hl, he⟩ := h.live hc
    cases call with
    | write t name =>
      simp only [WrCall.runB, WrCall.run, Writer.write, FileWriter.write, hc, hc', Bool.false_eq_true, if_false, h.endianness]
      match save cfg t.ops t.x w.endianness OStream.empty with
      | .error er => exact ⟨rfl, h, hf⟩
      | .ok out =>
        simp only [Writer.writeFile, FileWriter.writeFile, hc, hc', Bool.false_eq_true, if_false, h.method]
        unfold writeFileB Npy.writeFile
        generalize (if w.method = STORED then .ok out.buf else if w.method = DEFLATED then codec.deflate out.buf
            else .error (.throw (.invalidArgument .unsupportedCompression)) : Except Err Bytes) = d
        match d with
        | .error er => exact ⟨rfl, h, hf⟩
        | .ok d =>
          simp only []
          refine ⟨trivial, ⟨rfl, rfl, h.endianness, fun _ => ?_, fun hd => ?_⟩, hf⟩
          · cases hb : a.output.bad with
            | false =>
              simp only []
              rw [hl.2.tellp hb, ← OStream.tellp32_healthy hl.1, he hb]
              exact ⟨(hl.write _).write _, fun _ => rfl⟩
            | true =>
              simp only []
              rw [FileOut.write_bad hb, FileOut.write_bad hb, OStream.write_healthy hl.1, OStream.write_healthy (OStream.healthy_buf hl.1 _)]
              refine ⟨⟨OStream.healthy_buf (OStream.healthy_buf hl.1 _) _, ?_⟩, fun hg => by rw [hb] at hg; cases hg⟩
              have h1 := (hl.2.write_lost hb [] (localHeader
                { filename := entryName name, crc32 := npyCrc32 out.buf,
                  compressedSize := if w.method = STORED then out.buf.length % 2 ^ 32 else d.length % 2 ^ 32,
                  uncompressedSize := out.buf.length % 2 ^ 32, compressionMethod := w.method, offset := w.output.tellp32 }
                (decide (out.buf.length % 2 ^ 32 > ZIP64_LIMIT ∨
                  (if w.method = STORED then out.buf.length % 2 ^ 32 else d.length % 2 ^ 32) > ZIP64_LIMIT)))).1
              exact (Behind.write_lost (b := a.output) h1 hb [] _).1
          · cases hd
    | close =>
      simp only [WrCall.runB, WrCall.run, Writer.close, FileWriter.close, hc, hc', Bool.false_eq_true, if_false, hf, if_true]
      have h1 := behind_closeArchive hl he
      refine ⟨trivial, ⟨rfl, h.method, h.endianness, fun hd => by simp at hd, fun _ => ⟨?_, ?_⟩⟩, trivial⟩
      · exact h1.2.close
      · simp only [FileOut.close]
        rw [if_pos h1.2.isOpen]

theorem BehindWriter.calls {c : Option Nat} (cfg : Cfg) (codec : Codec) (calls : List WrCall) {a : FileWriter} {w : Writer}
    (h : BehindWriter c a w) (hf : w.isFile = true) :
    BehindWriter c (FileWriter.after cfg codec a calls) (Writer.after cfg codec w calls) ∧
    (Writer.after cfg codec w calls).isFile = true := by
  induction calls generalizing a w with
  | nil => exact ⟨h, hf⟩
  | cons call calls ih =>
    obtain ⟨-, h2, h3⟩ := h.call hf cfg codec call
    exact ih h2 h3

/-- Writers with equal settings, whatever their streams, have the same outcomes. -/
theorem outcomes_eq (cfg : Cfg) (codec : Codec) (calls : List WrCall) {a : FileWriter} {w : Writer} (h1 : a.closed = w.closed)
    (h2 : a.method = w.method) (h3 : a.endianness = w.endianness) :
    FileWriter.outcomes cfg codec a calls = (Writer.trace cfg codec w calls).map (·.2) := by
  induction calls generalizing a w with
  | nil => rfl
  | cons call calls ih =>
    simp only [FileWriter.outcomes, Writer.trace, List.map_cons]
    have key : (call.runB cfg codec a).1 = (call.run cfg codec w).1 ∧
        (call.runB cfg codec a).2.closed = (call.run cfg codec w).2.closed ∧
        (call.runB cfg codec a).2.method = (call.run cfg codec w).2.method ∧
        (call.runB cfg codec a).2.endianness = (call.run cfg codec w).2.endianness := by
      cases hc : w.closed with
      | true =>
        have hc' : a.closed = true := by rw [h1, hc]
        cases call with
        | write t name => simp [WrCall.runB, WrCall.run, Writer.write, FileWriter.write, hc, hc', h2, h3]
        | close => simp [WrCall.runB, WrCall.run, Writer.close, FileWriter.close, hc, hc', h2, h3]
      | false =>
        have hc' : a.closed = false := by rw [h1, hc]
        cases call with
        | write t name =>
          simp only [WrCall.runB, WrCall.run, Writer.write, FileWriter.write, hc, hc', Bool.false_eq_true, if_false, h3]
          match save cfg t.ops t.x w.endianness OStream.empty with
          | .error er => exact ⟨rfl, h1, h2, h3⟩
          | .ok out =>
            simp only [Writer.writeFile, FileWriter.writeFile, hc, hc', Bool.false_eq_true, if_false, h2]
            unfold writeFileB Npy.writeFile
            generalize (if w.method = STORED then .ok out.buf else if w.method = DEFLATED then codec.deflate out.buf
                else .error (.throw (.invalidArgument .unsupportedCompression)) : Except Err Bytes) = d
            match d with
            | .error er => exact ⟨rfl, h1, h2, h3⟩
            | .ok d => exact ⟨rfl, rfl, rfl, h3⟩
        | close =>
          simp only [WrCall.runB, WrCall.run, Writer.close, FileWriter.close, hc, hc', Bool.false_eq_true, if_false]
          exact ⟨trivial, trivial, h2, h3⟩
    rw [key.1, ih key.2.1 key.2.2.1 key.2.2.2]

theorem destroy_eq (cfg : Cfg) (codec : Codec) (w : Writer) (calls : List WrCall) :
    (Writer.destroy (Writer.after cfg codec w calls)).2 = Writer.after cfg codec w (calls ++ [.close]) := by
  unfold Writer.after
  rw [List.foldl_append]
  generalize List.foldl _ w calls = v
  show (Writer.destroy.run v).2 = (Writer.close.run v).2
  unfold Writer.destroy Writer.close
  simp only []
  split <;> rfl

/-- What a writer on a new file without a buffer leaves, against one without a limit. -/
theorem after_openOut (cfg : Cfg) (codec : Codec) (method : Nat) (e : Endian) (fs : Fs) (p : Bytes) (hw : fs.writable p = true)
    (calls : List WrCall) :
    (Writer.after cfg codec (Writer.newFile (fs.openOut p).1 method e) calls).output.buf =
      cutTo fs.room (Writer.after cfg codec (Writer.newFile OStream.empty method e) calls).output.buf := by
  rw [openOut_limited fs p hw]
  match fs.room with
  | none => rfl
  | some c => exact C47_lost cfg codec method e c calls

theorem new_behind (fs : Fs) (b : BufPolicy) (p : Bytes) (method : Nat) (e : Endian) (hw : fs.writable p = true) :
    BehindWriter fs.room (FileWriter.new (fs.openFile b p).1 method e) (Writer.newFile OStream.empty method e) :=
  ⟨rfl, rfl, rfl, fun _ => ⟨(openFile_behind fs b p hw).1, fun _ => rfl⟩, fun h => by cases h⟩

/-- After the calls and `close()`. -/
theorem closed_file (cfg : Cfg) (codec : Codec) (b : BufPolicy) (method : Nat) (e : Endian) (fs : Fs) (p : Bytes)
    (hw : fs.writable p = true) (calls : List WrCall) :
    (Writer.after cfg codec (Writer.newFile OStream.empty method e) calls).closed = true →
    (FileWriter.after cfg codec (FileWriter.new (fs.openFile b p).1 method e) calls).output.dev =
      (Writer.after cfg codec (Writer.newFile (fs.openOut p).1 method e) calls).output.buf ∧
    (FileWriter.after cfg codec (FileWriter.new (fs.openFile b p).1 method e) calls).output.isOpen = false := by
  intro hc
  obtain ⟨h1, -⟩ := (new_behind fs b p method e hw).calls cfg codec calls rfl
  rw [after_openOut cfg codec method e fs p hw calls]
  exact h1.done hc

theorem closed_stays (cfg : Cfg) (codec : Codec) (w : Writer) (h : w.closed = true) (calls : List WrCall) :
    Writer.after cfg codec w calls = w := by
  induction calls generalizing w with
  | nil => rfl
  | cons c calls ih =>
    have : (c.run cfg codec w).2 = w := by
      cases c with
      | write t name => simp [WrCall.run, Writer.write, h]
      | close => simp [WrCall.run, Writer.close, h]
    show Writer.after cfg codec (c.run cfg codec w).2 calls = w
    rw [this]
    exact ih w h

theorem closed_after_close (cfg : Cfg) (codec : Codec) (w : Writer) (calls : List WrCall) (h : WrCall.close ∈ calls) :
    (Writer.after cfg codec w calls).closed = true := by
  obtain ⟨l, r, rfl⟩ := List.append_of_mem h
  have : Writer.after cfg codec w (l ++ .close :: r) =
      Writer.after cfg codec (Writer.close (Writer.after cfg codec w l)).2 r := by
    simp only [Writer.after, List.foldl_append, List.foldl_cons]
    rfl
  have hc : (Writer.close (Writer.after cfg codec w l)).2.closed = true := by
    generalize Writer.after cfg codec w l = v
    show (Writer.close.run v).2.closed = true
    unfold Writer.close
    simp only []
    split
    · assumption
    · rfl
  rw [this, closed_stays cfg codec _ hc]
  exact hc

theorem FileOut.close_closed {o : FileOut} (h : o.isOpen = false) : o.close.dev = o.dev := by
  unfold FileOut.close
  rw [if_neg (by rw [h]; decide)]

end Npy
