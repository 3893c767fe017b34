import Verif.Spec.Exhaust
import Verif.Proofs.Archive
/-! Archives written while memory runs out now and then. -/

namespace Npy
open Spec (savedIn Put memDone)

/-- The relation between a write and its entry. -/
def MemWrote (cfg : Cfg) (codec : Codec) (method : Nat) (e : Endian) (p : Put) (item : FileEntry × Bytes) : Prop :=
  ∃ f, savedIn cfg p.2.1 e p.2.2 = .ok f ∧ ItemOf codec method p.1 f item

/-- The record of the entry is in the archive where the entry says (modulo the width of the field). -/
def Placed (body : Bytes) (i : FileEntry × Bytes) : Prop :=
  ∃ pre post, body = pre ++ recBytes i ++ post ∧ i.1.offset = pre.length % 2 ^ 32

theorem Placed.append {body : Bytes} {i : FileEntry × Bytes} (h : Placed body i) (more : Bytes) : Placed (body ++ more) i := by
  obtain ⟨pre, post, h1, h2⟩ := h
  exact ⟨pre, post ++ more, by rw [h1]; simp, h2⟩

/-- An open writer: entries for the writes, somewhere in the bytes written so far. -/
structure MemInv (cfg : Cfg) (codec : Codec) (method : Nat) (e : Endian) (w : Writer) (puts : List Put) (items : List (FileEntry × Bytes)) : Prop where
  healthy : w.output.Healthy
  closed : w.closed = false
  meth : w.method = method
  endianness : w.endianness = e
  entries : w.entries = items.map (·.1)
  placed : ∀ i ∈ items, Placed w.output.buf i
  wrote : List.Forall₂ (MemWrote cfg codec method e) puts items

/-- The bytes of a closed archive. -/
structure MemArch (cfg : Cfg) (codec : Codec) (method : Nat) (e : Endian) (b : Bytes) (puts : List Put) (items : List (FileEntry × Bytes)) : Prop where
  bytes : ∃ body, (∃ size < 2 ^ 32, b = body ++ (items.map (·.1)).flatMap centralHeader ++
    endOfCentralDirectory ⟨items.length % 2 ^ 16, size, body.length % 2 ^ 32⟩) ∧ ∀ i ∈ items, Placed body i
  wrote : List.Forall₂ (MemWrote cfg codec method e) puts items

theorem MemInv.grow {cfg : Cfg} {codec : Codec} {method : Nat} {e : Endian} {w : Writer} {puts : List Put} {items : List (FileEntry × Bytes)}
    (h : MemInv cfg codec method e w puts items) (more : Bytes) :
    MemInv cfg codec method e { w with output := { w.output with buf := w.output.buf ++ more } } puts items :=
  ⟨OStream.healthy_buf h.healthy _, h.closed, h.meth, h.endianness, h.entries, fun i hi => (h.placed i hi).append more, h.wrote⟩

theorem MemInv.close {cfg : Cfg} {codec : Codec} {method : Nat} {e : Endian} {w : Writer} {puts : List Put} {items : List (FileEntry × Bytes)}
    (h : MemInv cfg codec method e w puts items) :
    ∃ w', Writer.close w = (.ok (), w') ∧ w'.closed = true ∧ MemArch cfg codec method e w'.str puts items := by
  obtain ⟨w', hw'⟩ : ∃ w', Writer.close w = (.ok (), w') := by
    simp only [Writer.close, h.closed]
    exact ⟨_, rfl⟩
  refine ⟨w', hw', ?_⟩
  simp only [Writer.close, h.closed, Bool.false_eq_true, if_false, Prod.mk.injEq, true_and] at hw'
  rw [← hw']
  refine ⟨rfl, ⟨w.output.buf, ⟨((w.output.buf ++ w.entries.flatMap centralHeader).length % 2 ^ 32 +
        2 ^ 32 - w.output.buf.length % 2 ^ 32) % 2 ^ 32, Nat.mod_lt _ (by decide), ?_⟩, h.placed⟩, h.wrote⟩
  have hcl : (closeArchive w.entries w.output).buf = w.output.buf ++ w.entries.flatMap centralHeader ++
      endOfCentralDirectory ⟨w.entries.length % 2 ^ 16, ((w.output.buf ++ w.entries.flatMap centralHeader).length % 2 ^ 32 +
        2 ^ 32 - w.output.buf.length % 2 ^ 32) % 2 ^ 32, w.output.buf.length % 2 ^ 32⟩ := by
    unfold closeArchive
    simp only []
    rw [foldl_write_healthy h.healthy, OStream.tellp32_healthy h.healthy,
      OStream.tellp32_healthy (OStream.healthy_buf h.healthy _),
      OStream.write_healthy (OStream.healthy_buf h.healthy _)]
  have hl : items.length = w.entries.length := by rw [h.entries, List.length_map]
  rw [← h.entries, hl, ← hcl]
  unfold Writer.str
  simp only []
  split <;> rfl

theorem writeFileShort_cases (codec : Codec) (stop : WriteStop) {o : OStream} (ho : o.Healthy) (es : List FileEntry) (name : Bytes)
    (method : Nat) (f : Bytes) :
    (∃ er more, writeFileShort codec stop o es (Spec.storedName name) method f = (.error er, { o with buf := o.buf ++ more }, es)) ∨
    ∃ item, writeFileShort codec stop o es (Spec.storedName name) method f = (.ok (), { o with buf := o.buf ++ recBytes item }, es ++ [item.1]) ∧
      ItemOf codec method name f item ∧ item.1.offset = o.buf.length % 2 ^ 32 := by
  have hnil : ({ o with buf := o.buf ++ [] } : OStream) = o := by rw [List.append_nil]
  unfold writeFileShort
  by_cases hst : method = STORED
  · simp only [if_pos hst]
    split
    · exact .inl ⟨_, _, by rw [OStream.write_healthy ho]⟩
    · rw [OStream.write_healthy ho, OStream.write_healthy (OStream.healthy_buf ho _)]
      split
      · exact .inl ⟨_, _, by simp only [List.append_assoc]; rfl⟩
      · right
        refine ⟨({ filename := Spec.storedName name, crc32 := npyCrc32 f, compressedSize := f.length % 2 ^ 32, uncompressedSize := f.length % 2 ^ 32, compressionMethod := method, offset := o.buf.length % 2 ^ 32 },
           f.take (f.length % 2 ^ 32)), ?_, ⟨rfl, rfl, rfl, rfl, ⟨f, by rw [compressWith, if_pos hst], rfl, rfl⟩, Nat.mod_lt _ (by decide)⟩, rfl⟩
        simp [recBytes, OStream.tellp32_healthy ho]
  · simp only [if_neg hst]
    by_cases hd : method = DEFLATED
    · simp only [if_pos hd]
      by_cases hc : stop = .compressor
      · simp only [if_pos hc]
        exact .inl ⟨_, [], by rw [hnil]⟩
      · simp only [if_neg hc]
        match hz : codec.deflate f with
        | .error er => exact .inl ⟨_, [], by rw [hnil]⟩
        | .ok d =>
          simp only []
          split
          · exact .inl ⟨_, _, by rw [OStream.write_healthy ho]⟩
          · rw [OStream.write_healthy ho, OStream.write_healthy (OStream.healthy_buf ho _)]
            split
            · exact .inl ⟨_, _, by simp only [List.append_assoc]; rfl⟩
            · right
              refine ⟨({ filename := Spec.storedName name, crc32 := npyCrc32 f, compressedSize := d.length % 2 ^ 32, uncompressedSize := f.length % 2 ^ 32, compressionMethod := method, offset := o.buf.length % 2 ^ 32 },
                 d.take (d.length % 2 ^ 32)), ?_, ⟨rfl, rfl, rfl, rfl, ⟨d, by rw [compressWith, if_neg hst, if_pos hd, hz], rfl, rfl⟩, Nat.mod_lt _ (by decide)⟩, rfl⟩
              simp [recBytes, OStream.tellp32_healthy ho]
    · simp only [if_neg hd]
      exact .inl ⟨_, [], by rw [hnil]⟩

theorem foldl_central {o : OStream} (h : o.Healthy) (es : List FileEntry) (last : Bytes) :
    (es.foldl (fun o h => o.write (centralHeader h)) o).write last = { o with buf := o.buf ++ (es.flatMap centralHeader ++ last) } := by
  rw [foldl_write_healthy h, OStream.write_healthy (OStream.healthy_buf h _)]
  simp

/-- One call on a writer that is open. -/
theorem MemInv.call {cfg : Cfg} {codec : Codec} {method : Nat} {e : Endian} {w : Writer} {puts : List Put} {items : List (FileEntry × Bytes)}
    (h : MemInv cfg codec method e w puts items) (c : MemCall) :
    let r := c.run cfg codec w
    ∃ items', MemInv cfg codec method e r.2 (puts ++ Spec.adds c r.1) items' ∨
      (r.2.closed = true ∧ MemArch cfg codec method e r.2.str (puts ++ Spec.adds c r.1) items') := by
  cases c with
  | close stop =>
    simp only [MemCall.run, Spec.adds, List.append_nil]
    refine ⟨items, ?_⟩
    obtain ⟨w', c1, c2, c3⟩ := h.close
    have hclose : ((.ok () : Except MemErr Unit), (Writer.close w).2).2.closed = true ∧
        MemArch cfg codec method e ((.ok () : Except MemErr Unit), (Writer.close w).2).2.str puts items := by
      rw [c1]; exact ⟨c2, c3⟩
    unfold Writer.closeShort
    rw [if_neg (by rw [h.closed]; simp)]
    match stop.bind fun k => (w.entries[k]?).map fun e => (k, e) with
    | none => exact .inr hclose
    | some (k, en) =>
      simp only []
      split
      · left
        rw [foldl_central h.healthy]
        exact h.grow _
      · exact .inr hclose
  | write t name short =>
    simp only [MemCall.run]
    unfold Writer.writeShort
    rw [if_neg (by rw [h.closed]; simp)]
    by_cases he : short.stop = .early
    · rw [if_pos he]
      exact ⟨items, .inl (by simpa [Spec.adds] using h)⟩
    · rw [if_neg he]
      match hs : save cfg t.ops t.x w.endianness { OStream.empty with cap := short.room } with
      | .error er => exact ⟨items, .inl (by simpa [Spec.adds] using h)⟩
      | .ok out =>
        simp only []
        rw [entryName_eq]
        rcases writeFileShort_cases codec short.stop h.healthy w.entries name w.method out.buf with ⟨er, more, hw⟩ | ⟨item, hw, ho, hoff⟩
        · rw [hw]
          exact ⟨items, .inl (by simpa [Spec.adds] using h.grow more)⟩
        · rw [hw]
          refine ⟨items ++ [item], .inl ⟨OStream.healthy_buf h.healthy _, h.closed, h.meth, h.endianness, ?_, ?_, ?_⟩⟩
          · simp [h.entries]
          · intro i hi
            rcases List.mem_append.1 hi with hi | hi
            · exact (h.placed i hi).append _
            · rw [List.mem_singleton.1 hi]
              exact ⟨w.output.buf, [], by simp, hoff⟩
          · refine List.rel_append h.wrote (.cons ⟨out.buf, ?_, ?_⟩ .nil)
            · simp only [savedIn, ← h.endianness, hs, Except.map]
            · rw [← h.meth]; exact ho

/-- One call on a writer that is closed. -/
theorem memClosed_call {cfg : Cfg} {codec : Codec} {w : Writer} (h : w.closed = true) (c : MemCall) :
    (c.run cfg codec w).2 = w ∧ Spec.adds c (c.run cfg codec w).1 = [] := by
  cases c with
  | close stop => simp [MemCall.run, Writer.closeShort, h, Spec.adds]
  | write t name short => simp [MemCall.run, Writer.writeShort, h, Spec.adds]

theorem mem_history {cfg : Cfg} {codec : Codec} {method : Nat} {e : Endian} (calls : List MemCall) {w : Writer} {puts : List Put}
    (h : ∃ items, MemInv cfg codec method e w puts items ∨ (w.closed = true ∧ MemArch cfg codec method e w.str puts items)) :
    ∃ items, MemInv cfg codec method e (w.memAfter cfg codec calls) (puts ++ memDone (w.memTrace cfg codec calls)) items ∨
      ((w.memAfter cfg codec calls).closed = true ∧
        MemArch cfg codec method e (w.memAfter cfg codec calls).str (puts ++ memDone (w.memTrace cfg codec calls)) items) := by
  induction calls generalizing w puts with
  | nil => simpa [Writer.memAfter, Writer.memTrace, memDone] using h
  | cons c calls ih =>
    have hstep : ∃ items, MemInv cfg codec method e (c.run cfg codec w).2 (puts ++ Spec.adds c (c.run cfg codec w).1) items ∨
        ((c.run cfg codec w).2.closed = true ∧ MemArch cfg codec method e (c.run cfg codec w).2.str (puts ++ Spec.adds c (c.run cfg codec w).1) items) := by
      obtain ⟨items, h | ⟨h1, h2⟩⟩ := h
      · exact h.call c
      · obtain ⟨a, b⟩ := memClosed_call (cfg := cfg) (codec := codec) h1 c
        rw [a, b, List.append_nil]
        exact ⟨items, .inr ⟨h1, h2⟩⟩
    have := ih hstep
    rw [List.append_assoc] at this
    exact this

/-! ### Reading -/

/-- What a reader needs of an archive: its directory, and the records of the entries in their places. -/
structure HoldsArch (b : Bytes) (items : List (FileEntry × Bytes)) : Prop where
  item : ∀ i ∈ items, i.1.Ok ∧ i.2.length = i.1.compressedSize ∧ i.1.compressedSize < 2 ^ 32
  placed : ∀ i ∈ items, ∃ pre post, b = pre ++ recBytes i ++ post ∧ i.1.offset = pre.length ∧ pre.length < 2 ^ 32

theorem holds_read {b : Bytes} {vis : List (FileEntry × Bytes)} (h : HoldsArch b vis) (codec : Codec)
    {r : Reader} {ks : List Bytes} (hr : RInv r b (entryMapOf (vis.map (·.1))) ks) (name : Bytes) :
    ∃ r', RInv r' b (entryMapOf (vis.map (·.1))) ks ∧
      Reader.readFile codec name r =
        (match findName vis name with
         | some i => finish codec i.1.compressionMethod i.1.crc32 i.2
         | none => .error (.throw (.invalidArgument .filename)), r') := by
  have hlook : ∀ n, (entryMapOf (vis.map (·.1))).lookup n = (findItem vis n).map (·.1) := fun n => lookup_items n
  have hhit : ∀ n i, findItem vis n = some i → resolveName (entryMapOf (vis.map (·.1))) name = .ok n →
      ∃ r', RInv r' b (entryMapOf (vis.map (·.1))) ks ∧
        Reader.readFile codec name r = (finish codec i.1.compressionMethod i.1.crc32 i.2, r') := by
    intro n i h2 hres
    have hl : (entryMapOf (vis.map (·.1))).lookup n = some i.1 := by rw [hlook, h2]; rfl
    have him : i ∈ vis := List.mem_reverse.1 (List.mem_of_find?_eq_some h2)
    obtain ⟨pre, post, hb, hoff, hpre⟩ := h.placed i him
    obtain ⟨hok, hl2, hl3⟩ := h.item i him
    obtain ⟨s', e1, e2⟩ := readFile_found (codec := codec) hr.ready hb hoff hpre hok hl2 hl3 hres hl
    refine ⟨{ r with input := s' }, ⟨e1, hr.entries, hr.keys⟩, ?_⟩
    rw [readerReadFile_eq, hr.entries, e2]
    simp only [Prod.mk.injEq]
    refine ⟨?_, trivial⟩
    unfold finish decompressWith
    rfl
  unfold findName
  match hA : findItem vis name with
  | some t =>
    apply hhit name t hA
    unfold resolveName
    rw [hlook, hA]
    rfl
  | none =>
    match hB : findItem vis (name ++ b!".npy") with
    | some t =>
      apply hhit _ t hB
      unfold resolveName
      rw [hlook, hlook, hA, hB]
      rfl
    | none =>
      refine ⟨r, hr, ?_⟩
      have : (SM.lift (resolveName (entryMapOf (vis.map (·.1))) name) : IM Bytes) r.input =
          (.error (.throw (.invalidArgument .filename)), r.input) := by
        simp only [SM.lift_apply, resolveName]
        rw [hlook, hlook, hA, hB]
        rfl
      have hrf : Npy.readFile codec (entryMapOf (vis.map (·.1))) name r.input =
          (.error (.throw (.invalidArgument .filename)), r.input) := by
        unfold Npy.readFile
        rw [SM.bind_error this]
      rw [readerReadFile_eq, hr.entries, hrf]
      rw [← hr.entries]

theorem readLocalHeaderShort_ok {s : IStream} (h : s.good = true) (e : FileEntry) (he : e.Ok) (z : Bool) (r : Bytes) (stop : ReadStop) :
    ∃ x rest, readLocalHeaderShort stop (s.withRest (localHeader e z ++ r)) = (.ok x, s.withRest rest) ∧
      (x = none ∨ (x = some { e with offset := 0 } ∧ rest = r)) := by
  unfold readLocalHeaderShort localHeader
  simp only [List.append_assoc]
  rw [SM.bind_ok (assertSig_ok h LOCAL_HEADER_SIG _ rfl), SM.bind_ok (read16_w16 h (by split <;> decide) _),
    if_neg (by split <;> decide), SM.bind_ok (readSharedHeader_ok h _ e he _)]
  simp only []
  rw [SM.bind_ok (read16_w16 h (determineExtraLength_lt e false) _)]
  by_cases h1 : stop = .name
  · rw [if_pos h1]
    exact ⟨_, _, rfl, .inl rfl⟩
  rw [if_neg h1, SM.bind_ok (readName_ok h _ _)]
  by_cases h2 : stop = .nameCopy
  · rw [if_pos h2]
    exact ⟨_, _, rfl, .inl rfl⟩
  rw [if_neg h2]
  refine ⟨some { e with offset := 0 }, r, ?_, .inr ⟨rfl, rfl⟩⟩
  by_cases hx : determineExtraLength e false > 0
  · rw [if_pos hx, if_pos hx]
    have := readZip64Extra_ok h e he false 0 (by simp) r
    rw [SM.bind_ok (by simpa [FileEntry.blank] using this)]
    rfl
  · rw [if_neg hx, if_neg hx]
    obtain ⟨h1, h2, -⟩ := extra_zero e false hx
    simp [field32, h1, h2, FileEntry.blank]
    rfl

theorem holds_short {b : Bytes} {vis : List (FileEntry × Bytes)} (h : HoldsArch b vis)
    {r : Reader} {ks : List Bytes} (hr : RInv r b (entryMapOf (vis.map (·.1))) ks) (name : Bytes) (stop : ReadStop) :
    (readFileShort stop r.entries name r.input).2.Ready b := by
  unfold readFileShort
  by_cases h0 : stop = .start
  · rw [if_pos h0]
    exact hr.ready
  rw [if_neg h0, hr.entries]
  match hres : resolveName (entryMapOf (vis.map (·.1))) name with
  | .error er =>
    have : (SM.lift (resolveName (entryMapOf (vis.map (·.1))) name) : IM Bytes) r.input = (.error er, r.input) := by rw [hres]; rfl
    rw [SM.bind_error this]
    exact hr.ready
  | .ok n =>
    have : (SM.lift (resolveName (entryMapOf (vis.map (·.1))) name) : IM Bytes) r.input = (.ok n, r.input) := by rw [hres]; rfl
    rw [SM.bind_ok this]
    match hl : (entryMapOf (vis.map (·.1))).lookup n with
    | none => rw [hl]; exact hr.ready
    | some en =>
      rw [hl]
      have hl' := hl
      rw [lookup_items] at hl'
      obtain ⟨i, hi, rfl⟩ := Option.map_eq_some_iff.1 hl'
      have him : i ∈ vis := List.mem_reverse.1 (List.mem_of_find?_eq_some hi)
      obtain ⟨pre, post, hb, hoff, hpre⟩ := h.placed i him
      obtain ⟨hok, hl2, hl3⟩ := h.item i him
      obtain ⟨s1, e1, r1, g1, w1⟩ := seekg_ready hr.ready pre.length (by rw [hb]; simp)
      have hd : b.drop pre.length = localHeader i.1 (decide (i.1.uncompressedSize > ZIP64_LIMIT ∨ i.1.compressedSize > ZIP64_LIMIT)) ++
          (i.2 ++ post) := by
        rw [hb, recBytes, List.append_assoc, List.append_assoc, List.drop_left' rfl]
      simp only []
      rw [toStreamoff_nat (by rw [hoff]; omega), hoff, SM.bind_ok e1, w1, hd]
      obtain ⟨x, rest, k1, k2⟩ := readLocalHeaderShort_ok g1 i.1 hok
        (decide (i.1.uncompressedSize > ZIP64_LIMIT ∨ i.1.compressedSize > ZIP64_LIMIT)) (i.2 ++ post) stop
      rw [SM.bind_ok k1]
      rcases k2 with rfl | ⟨rfl, rfl⟩
      · exact ready_withRest r1 _
      · simp only []
        rw [if_neg (by simp [FileEntry.check])]
        by_cases h1 : stop = .payload
        · rw [if_pos h1]
          exact ready_withRest r1 _
        · rw [if_neg h1]
          have hpay : readPayload i.1.compressedSize (s1.withRest (i.2 ++ post)) = (.ok i.2, s1.withRest post) := by
            unfold readPayload
            rw [if_neg (by unfold STRING_MAX; omega), SM.bind_ok (IStream.read_append g1 i.2 post _ hl2)]
            simp [hl2]
          rw [SM.bind_ok hpay]
          exact ready_withRest r1 _

/-- The reader invariant survives every call, also one that runs out of memory. -/
theorem holds_after {b : Bytes} {vis : List (FileEntry × Bytes)} (h : HoldsArch b vis) (cfg : Cfg) (codec : Codec)
    {r : Reader} {ks : List Bytes} (hr : RInv r b (entryMapOf (vis.map (·.1))) ks) (calls : List MemRead) :
    RInv (r.memAfter cfg codec calls) b (entryMapOf (vis.map (·.1))) ks := by
  induction calls generalizing r with
  | nil => exact hr
  | cons c calls ih =>
    apply ih
    cases c with
    | short name stop => exact ⟨holds_short h hr name stop, hr.entries, hr.keys⟩
    | call c =>
      cases c with
      | read α ops name =>
        obtain ⟨r', h1, h2⟩ := holds_read h codec hr name
        have : (Reader.read cfg codec ops name r).2 = r' := by
          unfold Reader.read
          rw [SM.bind_apply, h2]
          split
          · rename_i heq
            simp only [Prod.mk.injEq] at heq
            rw [← heq.2]; rfl
          · rename_i heq
            simp only [Prod.mk.injEq] at heq
            rw [← heq.2]
        simp only [RdCall.run, this]
        exact h1
      | peek name =>
        obtain ⟨r', h1, h2⟩ := holds_read h codec hr name
        have : (Reader.peek cfg codec name r).2 = r' := by
          unfold Reader.peek
          rw [SM.bind_apply, h2]
          split
          · rename_i heq
            simp only [Prod.mk.injEq] at heq
            rw [← heq.2]; rfl
          · rename_i heq
            simp only [Prod.mk.injEq] at heq
            rw [← heq.2]
        simp only [RdCall.run, this]
        exact h1
      | contains name => exact hr
      | keys => exact hr

theorem findItem_mem {cfg : Cfg} {codec : Codec} {method : Nat} {e : Endian} {puts : List Put}
    {items : List (FileEntry × Bytes)} (h : List.Forall₂ (MemWrote cfg codec method e) puts items) (n : Bytes) :
    (Spec.lastWrite puts n = none ∧ findItem items n = none) ∨
      ∃ p i, Spec.lastWrite puts n = some p.2 ∧ p ∈ puts ∧ findItem items n = some i ∧ MemWrote cfg codec method e p i := by
  have := find?_forall₂ (p := fun w : Put => decide (Spec.storedName w.1 = n))
    (q := fun i : FileEntry × Bytes => decide (i.1.filename = n)) (R := MemWrote cfg codec method e)
    (by rintro a b ⟨f, -, ho⟩; rw [ho.filename]) (List.forall₂_reverse_iff.2 h)
  rcases this with ⟨h1, h2⟩ | ⟨p, i, h1, h2, h3⟩
  · exact .inl ⟨by unfold Spec.lastWrite; rw [h1]; rfl, h2⟩
  · exact .inr ⟨p, i, by unfold Spec.lastWrite; rw [h1]; rfl, List.mem_reverse.1 (List.mem_of_find?_eq_some h1), h2, h3⟩

theorem findName_mem {cfg : Cfg} {codec : Codec} {method : Nat} {e : Endian} {puts : List Put}
    {items : List (FileEntry × Bytes)} (h : List.Forall₂ (MemWrote cfg codec method e) puts items) (name : Bytes) :
    (Spec.lookup puts name = none ∧ findName items name = none) ∨
      ∃ p i, Spec.lookup puts name = some p.2 ∧ p ∈ puts ∧ findName items name = some i ∧ MemWrote cfg codec method e p i := by
  unfold Spec.lookup findName
  rcases findItem_mem h name with ⟨h1, h2⟩ | ⟨p, i, h1, h2, h3, h4⟩
  · rw [h1, h2]
    exact findItem_mem h (name ++ b!".npy")
  · rw [h1, h3]
    exact .inr ⟨p, i, rfl, h2, rfl, h4⟩

/-- Reading an archive made while memory ran out now and then. -/
theorem memArch_reads {cfg : Cfg} {codec : Codec} {method : Nat} {e : Endian} {b : Bytes} {puts : List Put} {items : List (FileEntry × Bytes)}
    (h : MemArch cfg codec method e b puts items) (hm : method < 2 ^ 16) (hlen : b.length < 2 ^ 32) (hcount : puts.length < 2 ^ 16)
    (hnames : ∀ p ∈ puts, (Spec.storedName p.1).length < 2 ^ 16) (s : IStream) (hs : s.Ready b) :
    ∃ r, Reader.open s = .ok r ∧ r.keys = sortKeys (puts.map fun p => Spec.storedName p.1) ∧
      ∀ calls name,
        (Reader.readFile codec name (r.memAfter cfg codec calls)).1 =
          (match Spec.lookup puts name with
           | some t => (savedIn cfg t.1 e t.2).bind (readBack codec method)
           | none => .error (.throw (.invalidArgument .filename))) ∧
        (r.memAfter cfg codec calls).contains name = (Spec.lastWrite puts name).isSome ∧
        (r.memAfter cfg codec calls).keys = r.keys := by
  obtain ⟨body, ⟨size, hsz, hb⟩, hplaced⟩ := h.bytes
  have hil : puts.length = items.length := h.wrote.length_eq
  have hbl : body.length < 2 ^ 32 := by
    have := congrArg List.length hb
    simp only [List.length_append] at this
    omega
  have hitem : ∀ i ∈ items, i.1.Ok ∧ i.2.length = i.1.compressedSize ∧ i.1.compressedSize < 2 ^ 32 := by
    intro i hi
    obtain ⟨p, hp, f, hf, ho⟩ := forall₂_mem_right h.wrote hi
    obtain ⟨d, d1, d2, d3⟩ := ho.comp
    have hdm : d.length % 2 ^ 32 < 2 ^ 32 := Nat.mod_lt _ (by decide)
    refine ⟨⟨?_, ?_, ?_, ?_, ?_, ?_⟩, ?_, ?_⟩
    · rw [ho.filename]; exact hnames p hp
    · rw [ho.crc]; exact BitVec.isLt _
    · rw [d2]; omega
    · rw [ho.usize]; omega
    · rw [ho.method]; exact hm
    · have := ho.offset; omega
    · rw [d2, d3, List.length_take]; exact Nat.min_eq_left (Nat.mod_le _ _)
    · rw [d2]; omega
  have hh : HoldsArch b items := by
    refine ⟨hitem, fun i hi => ?_⟩
    obtain ⟨pre, post, h1, h2⟩ := hplaced i hi
    have hpl : pre.length < 2 ^ 32 := by
      have := congrArg List.length h1
      simp only [List.length_append] at this
      omega
    rw [Nat.mod_eq_of_lt hpl] at h2
    refine ⟨pre, post ++ ((items.map (·.1)).flatMap centralHeader ++
      endOfCentralDirectory ⟨items.length % 2 ^ 16, size, body.length % 2 ^ 32⟩), ?_, h2, hpl⟩
    conv_lhs => rw [hb]
    rw [h1]
    simp only [List.append_assoc]
  rw [Nat.mod_eq_of_lt hbl, Nat.mod_eq_of_lt (by omega)] at hb
  obtain ⟨s', e1, e2⟩ := readEntries_ok (es := items.map (·.1)) (mid := []) (by
      intro en hen
      obtain ⟨i, hi, rfl⟩ := List.mem_map.1 hen
      exact (hitem i hi).1)
    (by rw [List.length_map]; omega) hbl hsz (by rw [List.append_nil, List.length_map]; exact hb) hs
  have hkeys : (items.map (·.1)).map (·.filename) = puts.map fun p => Spec.storedName p.1 := by
    rw [List.map_map]
    refine (forall₂_map_eq ?_ h.wrote).symm
    rintro a i ⟨f, -, ho⟩
    exact ho.filename.symm
  refine ⟨⟨s', entryMapOf (items.map (·.1)), sortKeys ((items.map (·.1)).map (·.filename))⟩, ?_, by rw [hkeys], ?_⟩
  · simp only [Reader.open, hs.isOpen, Bool.not_true, Bool.false_eq_true, if_false]
    rw [e1]
  · intro calls name
    have hi := holds_after hh cfg codec (r := ⟨s', entryMapOf (items.map (·.1)), sortKeys ((items.map (·.1)).map (·.filename))⟩)
      ⟨e2, rfl, rfl⟩ calls
    refine ⟨?_, ?_, hi.keys⟩
    · obtain ⟨r', -, er⟩ := holds_read hh codec hi name
      rw [er]
      rcases findName_mem h.wrote name with ⟨h1, h2⟩ | ⟨p, i, h1, -, h2, f, hf, ho⟩
      · rw [h1, h2]
      · rw [h1, h2]
        simp only []
        obtain ⟨d, d1, d2, d3⟩ := ho.comp
        rw [hf]
        simp only [Except.bind, readBack, d1]
        rw [ho.method, ho.crc, d3]
    · unfold Reader.contains
      rw [hi.entries, lookup_items]
      change ((findItem items name).map (·.1)).isSome = _
      rcases findItem_mem h.wrote name with ⟨h1, h2⟩ | ⟨p, i, h1, -, h2, -⟩
      · rw [h1, h2]; rfl
      · rw [h1, h2]; rfl

end Npy
