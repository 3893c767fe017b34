import Verif.Props.Npz
/-!
# Failing output devices (C47)
-/

namespace Npy

/-- A stream on a device that takes `c` bytes. -/
def OStream.limited (c : Nat) : OStream := { OStream.empty with cap := some c }

/-- The first stream, limited to `c` bytes, has been given what the second, unlimited, has been given. -/
structure Limited (c : Nat) (a b : OStream) : Prop where
  healthy : b.Healthy
  isOpen : a.isOpen = true
  cap : a.cap = some c
  buf : a.buf = b.buf.take c
  bad : a.bad = decide (c < b.buf.length)

theorem Limited.empty (c : Nat) : Limited c (OStream.limited c) OStream.empty :=
  ⟨OStream.empty_healthy, rfl, rfl, by simp [OStream.limited, OStream.empty], by simp [OStream.limited, OStream.empty]⟩

theorem Limited.write {c : Nat} {a b : OStream} (h : Limited c a b) (bs : Bytes) : Limited c (a.write bs) (b.write bs) := by
  obtain ⟨h1, h2, h3, h4, h5⟩ := h
  rw [OStream.write_healthy h1]
  by_cases hc : c < b.buf.length
  · have hb : a.bad = true := by rw [h5]; simpa using hc
    have : a.write bs = a := by
      cases a
      simp only at hb
      subst hb
      simp [OStream.write]
    rw [this]
    refine ⟨OStream.healthy_buf h1 _, h2, h3, ?_, ?_⟩
    · rw [h4]; simp only []; rw [List.take_append_of_le_length (by omega)]
    · rw [hb]; simp only [List.length_append]; rw [eq_comm, decide_eq_true_eq]; omega
  · have hb : a.bad = false := by rw [h5]; simpa using hc
    have hbuf : a.buf = b.buf := by rw [h4, List.take_of_length_le (by omega)]
    unfold OStream.write
    rw [hb, h2, h3]
    simp only [Bool.not_true, Bool.or_self, Bool.false_eq_true, if_false]
    split
    · rename_i hle
      refine ⟨OStream.healthy_buf h1 _, rfl, rfl, ?_, ?_⟩
      · simp only [hbuf]; rw [List.take_of_length_le (by rw [List.length_append, ← hbuf]; exact hle)]
      · simp only [List.length_append, ← hbuf]; rw [eq_comm, decide_eq_false_iff_not]; omega
    · rename_i hle
      refine ⟨OStream.healthy_buf h1 _, rfl, rfl, ?_, ?_⟩
      · simp only [hbuf]
      · simp only [List.length_append, ← hbuf]; rw [eq_comm, decide_eq_true_eq]; omega

/-- Once something was lost, nothing more reaches the device, whatever is written. -/
theorem Limited.write_lost {c : Nat} {a b : OStream} (h : Limited c a b) (hb : a.bad = true) (bs bs' : Bytes) :
    Limited c (a.write bs) (b.write bs') := by
  have : a.write bs = a.write bs' := by unfold OStream.write; rw [hb]; rfl
  rw [this]
  exact h.write bs'

theorem Limited.tellp {c : Nat} {a b : OStream} (h : Limited c a b) (hb : a.bad = false) : a.tellp32 = b.tellp32 := by
  have hc : ¬ c < b.buf.length := by have := h.bad; rw [hb] at this; simpa using this
  rw [OStream.tellp32_healthy h.healthy]
  unfold OStream.tellp32
  rw [hb, h.isOpen, h.buf, List.take_of_length_le (by omega)]
  rfl

theorem Limited.foldl {α : Type} {c : Nat} {f : OStream → α → OStream} (hf : ∀ a b x, Limited c a b → Limited c (f a x) (f b x))
    (xs : List α) {a b : OStream} (h : Limited c a b) : Limited c (xs.foldl f a) (xs.foldl f b) := by
  induction xs generalizing a b with
  | nil => exact h
  | cons x xs ih => exact ih (hf _ _ _ h)

/-- `write_values` is made of `put` and `write` calls only. -/
theorem fixed_limited {c : Nat} {a b : OStream} (h : Limited c a b) (cfg : Cfg) (t : DType) (e : Endian) (vals : List Elem) :
    Limited c (writeFixed cfg t e vals a) (writeFixed cfg t e vals b) := by
  unfold writeFixed
  split
  · exact h.write _
  · refine Limited.foldl (fun a b x h => ?_) _ h
    exact h.write _

theorem wide_limited {c : Nat} {a b : OStream} (h : Limited c a b) (cfg : Cfg) (e : Endian) (vals : List WStr) :
    Limited c (writeWide cfg e vals a) (writeWide cfg e vals b) := by
  unfold writeWide
  refine Limited.foldl (fun a b x h => ?_) _ h
  refine Limited.foldl (fun a b x h => h.write _) _ ?_
  refine Limited.foldl (fun a b x h => ?_) _ h
  exact h.write _

/-- **C47** (what happens instead), `save`. For every tensor of a fixed-size element type or of strings: whatever the state of the
output stream (closed, failed, full device), `save` returns normally exactly when it does on a string stream; and a device
that takes only `c` bytes is left with the first `c` bytes of the file. -/
theorem C47_save (cfg : Cfg) (e : Endian) (t : AnyTensor)
    (ht : (∃ (d : DType) (x : Tensor Elem), t = ⟨Elem, fixedOps d, x⟩) ∨ ∃ x : Tensor WStr, t = ⟨WStr, wideOps, x⟩) :
    (∀ o : OStream, (∃ o', save cfg t.ops t.x e o = .ok o') ↔ ∃ f, saveToString cfg t.ops t.x e = .ok f) ∧
    ∀ c f, saveToString cfg t.ops t.x e = .ok f →
      ∃ o', save cfg t.ops t.x e (OStream.limited c) = .ok o' ∧ o'.buf = f.take c := by
  constructor
  · intro o
    unfold saveToString save
    match t.ops.dtypeStr cfg e t.x.values with
    | .error err => simp [Except.map]
    | .ok d => simp [Except.map]
  · intro c f hf
    unfold saveToString save at hf
    unfold save
    match hd : t.ops.dtypeStr cfg e t.x.values with
    | .error err => rw [hd] at hf; simp [Except.map] at hf
    | .ok d =>
      rw [hd] at hf
      simp only [Except.map, Except.ok.injEq] at hf ⊢
      refine ⟨_, rfl, ?_⟩
      have hh : ∀ (fo : Bool) (sh : List Nat), Limited c (writeNpyHeader (OStream.limited c) d fo sh) (writeNpyHeader OStream.empty d fo sh) :=
        fun fo sh => (((Limited.empty c).write _).write _).write _
      rw [← hf]
      rcases ht with ⟨dt, x, rfl⟩ | ⟨x, rfl⟩
      · exact (fixed_limited (hh _ _) cfg dt e _).buf
      · exact (wide_limited (hh _ _) cfg e _).buf

/-- **C47** for `save` is false: a device that takes 10 bytes of a file of 140 is not reported. -/
theorem C47_save_false : ∃ o' f, save exCfg (fixedOps .int16) exTensor .little (OStream.limited 10) = .ok o' ∧
    saveToString exCfg (fixedOps .int16) exTensor .little = .ok f ∧ f.length = 140 ∧ o'.buf.length = 10 := by
  obtain ⟨f, h, -⟩ := storable_roundtrip (exPuts_storable (b!"x", ⟨Elem, fixedOps .int16, exTensor⟩) (by simp [exPuts]))
  obtain ⟨o', h1, h2⟩ := (C47_save exCfg .little ⟨Elem, fixedOps .int16, exTensor⟩ (.inl ⟨_, _, rfl⟩)).2 10 f h
  have hf : f = (saveToString exCfg (fixedOps .int16) exTensor .little).toOption.getD [] := by
    have : saveToString exCfg (fixedOps .int16) exTensor .little = .ok f := h
    rw [this]; rfl
  have hl : f.length = 140 := by rw [hf]; decide +kernel
  exact ⟨o', f, h1, h, hl, by rw [h2, List.length_take, hl]; rfl⟩

/-! ### Archive writers -/

/-- Writers with equal settings, whatever their streams. -/
structure AlikeWriter (a b : Writer) : Prop where
  closed : a.closed = b.closed
  method : a.method = b.method
  endianness : a.endianness = b.endianness

theorem AlikeWriter.call {a b : Writer} (h : AlikeWriter a b) (cfg : Cfg) (codec : Codec) (c : WrCall) :
    (c.run cfg codec a).1 = (c.run cfg codec b).1 ∧ AlikeWriter (c.run cfg codec a).2 (c.run cfg codec b).2 := by
  cases hc : b.closed with
  | true =>
    have hc' : a.closed = true := by rw [h.closed, hc]
    cases c with
    | write t name => simp [WrCall.run, Writer.write, hc, hc', h]
    | close => simp [WrCall.run, Writer.close, hc, hc', h]
  | false =>
    have hc' : a.closed = false := by rw [h.closed, hc]
    cases c with
    | write t name =>
      simp only [WrCall.run, Writer.write, hc, hc', Bool.false_eq_true, if_false, h.endianness]
      match save cfg t.ops t.x b.endianness OStream.empty with
      | .error er => exact ⟨rfl, h⟩
      | .ok out =>
        simp only [Writer.writeFile, hc, hc', Bool.false_eq_true, if_false, h.method]
        unfold Npy.writeFile
        generalize (if b.method = STORED then .ok out.buf else if b.method = DEFLATED then codec.deflate out.buf
            else .error (.throw (.invalidArgument .unsupportedCompression)) : Except Err Bytes) = d
        match d with
        | .error er => exact ⟨rfl, h⟩
        | .ok d => exact ⟨rfl, rfl, rfl, h.endianness⟩
    | close =>
      simp only [WrCall.run, Writer.close, hc, hc', Bool.false_eq_true, if_false]
      exact ⟨trivial, rfl, h.method, h.endianness⟩

/-- **C47** (what happens instead), archive writers: over any history of writes and closes, each call returns or throws alike whatever
the stream underneath: never opened, failed, or with a full device. -/
theorem C47_outcomes (cfg : Cfg) (codec : Codec) (method : Nat) (e : Endian) (o o' : OStream) (calls : List WrCall) :
    (Writer.trace cfg codec (Writer.newFile o method e) calls).map (·.2) =
      (Writer.trace cfg codec (Writer.newFile o' method e) calls).map (·.2) := by
  have key : ∀ (calls : List WrCall) (a b : Writer), AlikeWriter a b →
      (Writer.trace cfg codec a calls).map (·.2) = (Writer.trace cfg codec b calls).map (·.2) := by
    intro calls
    induction calls with
    | nil => exact fun a b h => rfl
    | cons c calls ih =>
      intro a b h
      obtain ⟨h1, h2⟩ := h.call cfg codec c
      simp only [Writer.trace, List.map_cons, h1, ih _ _ h2]
  exact key calls _ _ ⟨rfl, rfl, rfl⟩

/-- A writer on a limited device and one on an unlimited device after the same calls. -/
structure LimitedWriter (c : Nat) (a b : Writer) : Prop where
  alike : AlikeWriter a b
  isFile : a.isFile = b.isFile
  buf : a.output.buf = b.output.buf.take c
  live : a.closed = false → Limited c a.output b.output ∧ (a.output.bad = false → a.entries = b.entries)

theorem LimitedWriter.call {c : Nat} {a b : Writer} (h : LimitedWriter c a b) (cfg : Cfg) (codec : Codec) (call : WrCall) :
    LimitedWriter c (call.run cfg codec a).2 (call.run cfg codec b).2 := by
  have hal := (h.alike.call cfg codec call).2
  cases hc : b.closed with
  | true =>
    have hc' : a.closed = true := by rw [h.alike.closed, hc]
    cases call with
    | write t name => simpa [WrCall.run, Writer.write, hc, hc'] using h
    | close => simpa [WrCall.run, Writer.close, hc, hc'] using h
  | false =>
    have hc' : a.closed = false := by rw [h.alike.closed, hc]
    obtain ⟨hl, he⟩ := h.live hc'
    cases call with
    | write t name =>
      simp only [WrCall.run, Writer.write, hc, hc', Bool.false_eq_true, if_false, h.alike.endianness] at hal ⊢
      match hsv : save cfg t.ops t.x b.endianness OStream.empty with
      | .error er => exact h
      | .ok out =>
        rw [hsv] at hal
        simp only [Writer.writeFile, hc, hc', Bool.false_eq_true, if_false, h.alike.method] at hal ⊢
        unfold Npy.writeFile at hal ⊢
        generalize (if b.method = STORED then .ok out.buf else if b.method = DEFLATED then codec.deflate out.buf
            else .error (.throw (.invalidArgument .unsupportedCompression)) : Except Err Bytes) = d at hal ⊢
        match d with
        | .error er => exact h
        | .ok d =>
          simp only [] at hal ⊢
          cases hbad : a.output.bad with
          | false =>
            rw [hl.tellp hbad, he hbad] at hal ⊢
            have := (hl.write (localHeader
              { filename := entryName name, crc32 := npyCrc32 out.buf,
                compressedSize := if b.method = STORED then out.buf.length % 2 ^ 32 else d.length % 2 ^ 32,
                uncompressedSize := out.buf.length % 2 ^ 32, compressionMethod := b.method, offset := b.output.tellp32 }
              (decide (out.buf.length % 2 ^ 32 > ZIP64_LIMIT ∨
                (if b.method = STORED then out.buf.length % 2 ^ 32 else d.length % 2 ^ 32) > ZIP64_LIMIT)))).write
                (d.take (if b.method = STORED then out.buf.length % 2 ^ 32 else d.length % 2 ^ 32))
            exact ⟨hal, h.isFile, this.buf, fun _ => ⟨this, fun _ => rfl⟩⟩
          | true =>
            have h1 := hl.write_lost hbad
            have h2 : ∀ bs, (a.output.write bs).bad = true := fun bs => by unfold OStream.write; rw [hbad]; rfl
            have h3 : ∀ bs bs' cs cs', Limited c ((a.output.write bs).write cs) ((b.output.write bs').write cs') :=
              fun bs bs' cs cs' => (h1 bs bs').write_lost (h2 bs) cs cs'
            refine ⟨hal, h.isFile, (h3 _ _ _ _).buf, fun _ => ⟨h3 _ _ _ _, fun hb => ?_⟩⟩
            exfalso
            simp only [] at hb
            have h4 : ∀ (o : OStream) cs, o.bad = true → (o.write cs).bad = true := fun o cs ho => by unfold OStream.write; rw [ho]; rfl
            rw [h4 _ _ (h2 _)] at hb
            simp at hb
    | close =>
      have hbuf : (closeArchive a.entries a.output).buf = (closeArchive b.entries b.output).buf.take c := by
        unfold closeArchive
        cases hbad : a.output.bad with
        | false =>
          have hf : Limited c (b.entries.foldl (fun o h => o.write (centralHeader h)) a.output)
              (b.entries.foldl (fun o h => o.write (centralHeader h)) b.output) :=
            Limited.foldl (fun a b x h => h.write (centralHeader x)) _ hl
          rw [he hbad, hl.tellp hbad]
          simp only []
          cases hb2 : (b.entries.foldl (fun o h => o.write (centralHeader h)) a.output).bad with
          | false => rw [hf.tellp hb2]; exact (hf.write _).buf
          | true => exact (hf.write_lost hb2 _ _).buf
        | true =>
          have key : ∀ (es es' : List FileEntry) (x y : OStream), Limited c x y → x.bad = true →
              Limited c (es.foldl (fun o h => o.write (centralHeader h)) x) (es'.foldl (fun o h => o.write (centralHeader h)) y) ∧
              (es.foldl (fun o h => o.write (centralHeader h)) x).bad = true := by
            intro es
            induction es with
            | nil =>
              intro es'
              induction es' with
              | nil => exact fun x y h1 h2 => ⟨h1, h2⟩
              | cons e' es' ih =>
                intro x y h1 h2
                refine ⟨?_, h2⟩
                have h3 := h1.write_lost h2 [] (centralHeader e')
                have h4 : x.write [] = x := by
                  cases x
                  simp only at h2
                  subst h2
                  simp [OStream.write]
                rw [h4] at h3
                exact (ih x _ h3 h2).1
            | cons e es ih =>
              intro es' x y h1 h2
              have h4 : x.write (centralHeader e) = x := by
                cases x
                simp only at h2
                subst h2
                simp [OStream.write]
              simp only [List.foldl_cons, h4]
              exact ih es' x y h1 h2
          obtain ⟨k1, k2⟩ := key a.entries b.entries _ _ hl hbad
          exact (k1.write_lost k2 _ _).buf
      simp only [WrCall.run, Writer.close, hc, hc', Bool.false_eq_true, if_false] at hal ⊢
      have hb : ∀ (x : Bool) (o : OStream), (if x = true then { o with isOpen := false } else o).buf = o.buf := by
        intro x o; cases x <;> rfl
      exact ⟨hal, h.isFile, by simp only []; rw [hb, hb, hbuf], by simp⟩

/-- **C47** (what happens instead), archive writers: on a disk that takes only `c` bytes, after any history the file holds the first `c`
bytes of what it should hold. -/
theorem C47_lost (cfg : Cfg) (codec : Codec) (method : Nat) (e : Endian) (c : Nat) (calls : List WrCall) :
    (Writer.after cfg codec (Writer.newFile (OStream.limited c) method e) calls).output.buf =
      (Writer.after cfg codec (Writer.newFile OStream.empty method e) calls).output.buf.take c := by
  have key : ∀ (calls : List WrCall) (a b : Writer), LimitedWriter c a b →
      LimitedWriter c (Writer.after cfg codec a calls) (Writer.after cfg codec b calls) := by
    intro calls
    induction calls with
    | nil => exact fun a b h => h
    | cons call calls ih => exact fun a b h => ih _ _ (h.call cfg codec call)
  exact (key calls (Writer.newFile (OStream.limited c) method e) (Writer.newFile OStream.empty method e)
    ⟨⟨rfl, rfl, rfl⟩, rfl, (Limited.empty c).buf, fun _ => ⟨Limited.empty c, fun _ => rfl⟩⟩).buf

/-- The calls that write `exTensor` and close. -/
def exCalls : List WrCall := [.write ⟨Elem, fixedOps .int16, exTensor⟩ b!"x", .close]

theorem exCalls_ok : (Writer.trace exCfg noCodec (Writer.newFile (OStream.limited 100) STORED .little) exCalls).map (·.2) =
    [.ok (), .ok ()] := by
  rw [C47_outcomes _ _ _ _ _ OStream.empty]
  decide +kernel

/-- **C47** for archives is false: both calls return, and 100 bytes of 248 are on the disk. -/
theorem C47_archive_false :
    (Writer.trace exCfg noCodec (Writer.newFile (OStream.limited 100) STORED .little) exCalls).map (·.2) = [.ok (), .ok ()] ∧
    (Writer.after exCfg noCodec (Writer.newFile (OStream.limited 100) STORED .little) exCalls).output.buf.length = 100 ∧
    (Writer.after exCfg noCodec (Writer.newFile OStream.empty STORED .little) exCalls).output.buf.length = 248 := by
  have h : (Writer.after exCfg noCodec (Writer.newFile OStream.empty STORED .little) exCalls).output.buf.length = 248 := by
    decide +kernel
  refine ⟨exCalls_ok, ?_, h⟩
  rw [C47_lost, List.length_take, h]
  rfl

end Npy
