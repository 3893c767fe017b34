import Verif.Model.NpzClient
import Verif.Proofs.Zip
import Verif.Proofs.Values
import Verif.Props.Api
import Mathlib.Data.List.Forall2
/-! NPZ writers and readers. -/

namespace Npy

/-! ### Names -/

theorem entryName_eq (name : Bytes) : entryName name = Spec.storedName name := by
  unfold entryName Spec.storedName
  by_cases h : b!".npy" <:+ name
  · rw [if_pos h, if_neg]
    obtain ⟨t, rfl⟩ := h
    simp
  · rw [if_neg h, if_pos]
    by_cases hl : name.length < 4
    · exact .inl hl
    · right
      intro hc
      apply h
      refine ⟨name.take (name.length - 4), ?_⟩
      have e : name.reverse.take 4 = (name.drop (name.length - 4)).reverse := by
        rw [List.take_reverse]
      rw [e, List.reverse_inj] at hc
      rw [← hc]
      exact List.take_append_drop _ _

/-! ### Output streams -/

theorem OStream.healthy_buf {o : OStream} (h : o.Healthy) (bs : Bytes) : ({ o with buf := bs } : OStream).Healthy := h

theorem OStream.tellp32_healthy {o : OStream} (h : o.Healthy) : o.tellp32 = o.buf.length % 2 ^ 32 := by
  obtain ⟨h1, h2, _⟩ := h
  simp [OStream.tellp32, h1, h2]

theorem foldl_write_healthy {o : OStream} (h : o.Healthy) (es : List FileEntry) :
    es.foldl (fun o h => o.write (centralHeader h)) o = { o with buf := o.buf ++ es.flatMap centralHeader } := by
  induction es generalizing o with
  | nil => simp
  | cons e es ih =>
    rw [List.foldl_cons, OStream.write_healthy h, ih (OStream.healthy_buf h _)]
    simp

/-! ### What a writer holds -/

/-- One entry in the archive body. -/
def recBytes (i : FileEntry × Bytes) : Bytes :=
  localHeader i.1 (decide (i.1.uncompressedSize > ZIP64_LIMIT ∨ i.1.compressedSize > ZIP64_LIMIT)) ++ i.2

/-- A writer that has written the entries `items`. -/
structure WInv (w : Writer) (items : List (FileEntry × Bytes)) : Prop where
  healthy : w.output.Healthy
  closed : w.closed = false
  buf : w.output.buf = items.flatMap recBytes
  entries : w.entries = items.map (·.1)
  offs : ∀ a i c, items = a ++ i :: c → i.1.offset = (a.flatMap recBytes).length % 2 ^ 32

/-- Compression as `write_file` does it (npz.cpp:353-362). -/
def compressWith (codec : Codec) (method : Nat) (f : Bytes) : Except Err Bytes :=
  if method = STORED then .ok f
  else if method = DEFLATED then codec.deflate f
  else .error (.throw (.invalidArgument .unsupportedCompression))

/-- `item` is the entry of the file `f` stored under `name`. -/
structure ItemOf (codec : Codec) (meth : Nat) (name f : Bytes) (item : FileEntry × Bytes) : Prop where
  filename : item.1.filename = Spec.storedName name
  crc : item.1.crc32 = npyCrc32 f
  usize : item.1.uncompressedSize = f.length % 2 ^ 32
  method : item.1.compressionMethod = meth
  comp : ∃ d, compressWith codec meth f = .ok d ∧ item.1.compressedSize = d.length % 2 ^ 32 ∧
    item.2 = d.take (d.length % 2 ^ 32)
  offset : item.1.offset < 2 ^ 32

theorem writeFile_healthy (codec : Codec) {o : OStream} (ho : o.Healthy) (es : List FileEntry) (name : Bytes) (method : Nat)
    (f : Bytes) {d : Bytes} (hd : compressWith codec method f = .ok d) :
    ∃ item, Npy.writeFile codec o es (Spec.storedName name) method f = .ok ({ o with buf := o.buf ++ recBytes item }, es ++ [item.1]) ∧
      ItemOf codec method name f item ∧ item.1.offset = o.buf.length % 2 ^ 32 := by
  have hcs : (if method = STORED then f.length % 2 ^ 32 else d.length % 2 ^ 32) = d.length % 2 ^ 32 := by
    split
    · rename_i h
      rw [compressWith, if_pos h, Except.ok.injEq] at hd
      rw [hd]
    · rfl
  refine ⟨({ filename := Spec.storedName name, crc32 := npyCrc32 f, compressedSize := d.length % 2 ^ 32,
             uncompressedSize := f.length % 2 ^ 32, compressionMethod := method, offset := o.buf.length % 2 ^ 32 },
           d.take (d.length % 2 ^ 32)), ?_, ⟨rfl, rfl, rfl, rfl, ⟨d, hd, rfl, rfl⟩, Nat.mod_lt _ (by decide)⟩, rfl⟩
  unfold Npy.writeFile
  unfold compressWith at hd
  simp only [hd, hcs, OStream.tellp32_healthy ho, OStream.write_healthy ho]
  rw [OStream.write_healthy (OStream.healthy_buf ho _)]
  simp [recBytes]

theorem write_inv {cfg : Cfg} {codec : Codec} {w w' : Writer} {items : List (FileEntry × Bytes)} (hw : WInv w items)
    {name : Bytes} {t : AnyTensor} (h : Writer.write cfg codec t.ops name t.x w = (.ok (), w')) :
    ∃ item f, saveToString cfg t.ops t.x w.endianness = .ok f ∧ ItemOf codec w.method name f item ∧
      WInv w' (items ++ [item]) ∧ w' = { w with output := w'.output, entries := w'.entries } := by
  simp only [Writer.write, hw.closed] at h
  simp only [Bool.false_eq_true, if_false] at h
  match hs : save cfg t.ops t.x w.endianness OStream.empty with
  | .error er => rw [hs] at h; simp at h
  | .ok out =>
    rw [hs] at h
    simp only [Writer.writeFile, hw.closed, Bool.false_eq_true, if_false] at h
    rw [entryName_eq] at h
    match hd : compressWith codec w.method out.buf with
    | .error er =>
      exfalso
      have : Npy.writeFile codec w.output w.entries (Spec.storedName name) w.method out.buf = .error er := by
        unfold Npy.writeFile
        unfold compressWith at hd
        simp only [hd]
      rw [this] at h
      simp at h
    | .ok d =>
      obtain ⟨item, e1, e2, e3⟩ := writeFile_healthy codec hw.healthy w.entries name w.method out.buf hd
      rw [e1] at h
      simp only [Prod.mk.injEq, true_and] at h
      refine ⟨item, out.buf, by simp [saveToString, hs, Except.map], e2, ?_, ?_⟩
      · rw [← h]
        refine ⟨OStream.healthy_buf hw.healthy _, rfl, ?_, ?_, ?_⟩
        · simp [hw.buf]
        · simp [hw.entries]
        · intro a i c hai
          rcases List.eq_nil_or_concat c with rfl | ⟨c', l, rfl⟩
          · have : items = a ∧ item = i := by
              have := List.append_inj' hai rfl
              simpa using this
            rw [← this.1, ← this.2, e3, hw.buf]
          · have : items = a ++ i :: c' ∧ item = l := by
              have h2 : items ++ [item] = (a ++ i :: c') ++ [l] := by rw [hai]; simp
              have := List.append_inj' h2 rfl
              simpa using this
            exact hw.offs a i c' this.1
      · rw [← h, hw.closed]

/-- The entries a sequence of successful writes adds. -/
theorem writeAll_inv {cfg : Cfg} {codec : Codec} {w w' : Writer} {items : List (FileEntry × Bytes)} (hw : WInv w items)
    {puts : List (Bytes × AnyTensor)} (h : Writer.writeAll cfg codec puts w = (.ok (), w')) :
    ∃ more, WInv w' (items ++ more) ∧ w' = { w with output := w'.output, entries := w'.entries } ∧
      List.Forall₂ (fun (p : Bytes × AnyTensor) item => ∃ f, saveToString cfg p.2.ops p.2.x w.endianness = .ok f ∧
        ItemOf codec w.method p.1 f item) puts more := by
  induction puts generalizing w items with
  | nil =>
    simp only [Writer.writeAll, SM.pure_apply, Prod.mk.injEq, true_and] at h
    subst h
    exact ⟨[], by simpa using hw, rfl, .nil⟩
  | cons p puts ih =>
    obtain ⟨name, t⟩ := p
    rw [Writer.writeAll] at h
    obtain ⟨⟨⟩, w1, h1, h2⟩ := SM.of_bind_ok h
    obtain ⟨item, f, e1, e2, e3, e4⟩ := write_inv hw h1
    obtain ⟨more, g1, g2, g3⟩ := ih e3 h2
    refine ⟨item :: more, by simpa using g1, ?_, ?_⟩
    · rw [g2, e4]
    · refine .cons ⟨f, e1, e2⟩ ?_
      rw [e4] at g3
      exact g3

theorem close_exact {w : Writer} {items : List (FileEntry × Bytes)} (hw : WInv w items) :
    ∃ w', Writer.close w = (.ok (), w') ∧ w'.closed = true ∧
      w'.str = items.flatMap recBytes ++ (items.map (·.1)).flatMap centralHeader ++
        endOfCentralDirectory ⟨items.length % 2 ^ 16, ((items.map (·.1)).flatMap centralHeader).length % 2 ^ 32,
          (items.flatMap recBytes).length % 2 ^ 32⟩ := by
  obtain ⟨w', hw'⟩ : ∃ w', Writer.close w = (.ok (), w') := by
    simp only [Writer.close, hw.closed]
    exact ⟨_, rfl⟩
  refine ⟨w', hw', ?_⟩
  simp only [Writer.close, hw.closed, Bool.false_eq_true, if_false, Prod.mk.injEq, true_and] at hw'
  rw [← hw']
  refine ⟨rfl, ?_⟩
  have hcl : (closeArchive w.entries w.output).buf = w.output.buf ++ w.entries.flatMap centralHeader ++
      endOfCentralDirectory ⟨w.entries.length % 2 ^ 16, ((w.output.buf ++ w.entries.flatMap centralHeader).length % 2 ^ 32 +
        2 ^ 32 - w.output.buf.length % 2 ^ 32) % 2 ^ 32, w.output.buf.length % 2 ^ 32⟩ := by
    unfold closeArchive
    simp only []
    rw [foldl_write_healthy hw.healthy, OStream.tellp32_healthy hw.healthy,
      OStream.tellp32_healthy (OStream.healthy_buf hw.healthy _),
      OStream.write_healthy (OStream.healthy_buf hw.healthy _)]
  unfold Writer.str
  have hsz : ((w.output.buf ++ w.entries.flatMap centralHeader).length % 2 ^ 32 + 2 ^ 32 - w.output.buf.length % 2 ^ 32) % 2 ^ 32 =
      (w.entries.flatMap centralHeader).length % 2 ^ 32 := by
    rw [List.length_append]
    omega
  rw [hsz] at hcl
  rw [hw.buf, hw.entries, List.length_map] at hcl
  simp only [hw.entries, hw.buf]
  rw [← hcl]
  split <;> rfl

theorem close_inv {w : Writer} {items : List (FileEntry × Bytes)} (hw : WInv w items) :
    ∃ w', Writer.close w = (.ok (), w') ∧ w'.closed = true ∧
      ∃ size < 2 ^ 32, w'.str = items.flatMap recBytes ++ (items.map (·.1)).flatMap centralHeader ++
        endOfCentralDirectory ⟨items.length % 2 ^ 16, size, (items.flatMap recBytes).length % 2 ^ 32⟩ := by
  obtain ⟨w', h1, h2, h3⟩ := close_exact hw
  exact ⟨w', h1, h2, _, Nat.mod_lt _ (by decide), h3⟩

theorem newString_inv (method : Nat) (e : Endian) : WInv (Writer.newString method e) [] where
  healthy := ⟨rfl, rfl, rfl⟩
  closed := rfl
  buf := rfl
  entries := rfl
  offs := by intro a i c h; simp at h

/-! ### Look-up -/

theorem lookup_reverse_map (es : List FileEntry) (n : Bytes) :
    (entryMapOf es).lookup n = es.reverse.find? (fun e => e.filename = n) := by
  unfold entryMapOf
  rw [← List.map_reverse]
  generalize es.reverse = l
  induction l with
  | nil => rfl
  | cons e l ih =>
    rw [List.map_cons, List.lookup_cons, List.find?_cons, ih]
    by_cases h : e.filename = n
    · subst h; simp
    · have : (n == e.filename) = false := by simpa using fun h' => h h'.symm
      simp [this, h]

theorem find?_forall₂ {α β : Type _} {R : α → β → Prop} {p : α → Bool} {q : β → Bool} (hpq : ∀ a b, R a b → p a = q b)
    {as : List α} {bs : List β} (h : List.Forall₂ R as bs) :
    (as.find? p = none ∧ bs.find? q = none) ∨
      ∃ a b, as.find? p = some a ∧ bs.find? q = some b ∧ R a b := by
  induction h with
  | nil => exact .inl ⟨rfl, rfl⟩
  | @cons a b as bs hab _ ih =>
    rw [List.find?_cons, List.find?_cons, hpq a b hab]
    cases q b with
    | true => exact .inr ⟨a, b, rfl, rfl, hab⟩
    | false => exact ih

/-- The read of an entry found in the directory whose data is in place. -/
theorem readFile_found {s : IStream} {codec : Codec} {m : EntryMap} {b pre post : Bytes} {n : Bytes} {item : FileEntry × Bytes}
    (hs : s.Ready b) (hb : b = pre ++ recBytes item ++ post) (hoff : item.1.offset = pre.length) (hpre : pre.length < 2 ^ 32)
    (hok : item.1.Ok) (hlen : item.2.length = item.1.compressedSize) (hcs : item.1.compressedSize < 2 ^ 32)
    {temp : Bytes} (hn : resolveName m temp = .ok n) (hl : m.lookup n = some item.1) :
    ∃ s', s'.Ready b ∧ Npy.readFile codec m temp s =
      (match (if item.1.compressionMethod = DEFLATED then codec.inflate item.2 else .ok item.2) with
       | .error e => .error e
       | .ok bytes => if npyCrc32 bytes ≠ item.1.crc32 then .error (.throw (.runtimeError .crcMismatch)) else .ok bytes, s') := by
  obtain ⟨s1, e1, r1, g1, w1⟩ := seekg_ready hs pre.length (by rw [hb]; simp)
  have hd : b.drop pre.length = localHeader item.1 (decide (item.1.uncompressedSize > ZIP64_LIMIT ∨ item.1.compressedSize > ZIP64_LIMIT)) ++
      (item.2 ++ post) := by
    rw [hb, recBytes, List.append_assoc, List.append_assoc, List.drop_left' rfl]
  have hcheck : item.1.check { item.1 with offset := 0 } = true := by
    simp [FileEntry.check]
  have hpay : readPayload item.1.compressedSize (s1.withRest (item.2 ++ post)) = (.ok item.2, s1.withRest post) := by
    unfold readPayload
    rw [if_neg (by unfold STRING_MAX; omega), SM.bind_ok (IStream.read_append g1 item.2 post _ hlen)]
    simp [hlen]
  refine ⟨s1.withRest post, ready_withRest r1 _, ?_⟩
  unfold Npy.readFile
  have hl1 : (SM.lift (resolveName m temp) : IM Bytes) s = (.ok n, s) := by rw [hn]; rfl
  rw [SM.bind_ok hl1, hl]
  simp only []
  rw [toStreamoff_nat (by rw [hoff]; omega), hoff, SM.bind_ok e1, w1, hd, SM.bind_ok (readLocalHeader_ok g1 item.1 hok _ _)]
  rw [if_neg (by rw [hcheck]; simp), SM.bind_ok hpay]
  match (if item.1.compressionMethod = DEFLATED then codec.inflate item.2 else .ok item.2) with
  | .error e => rfl
  | .ok bytes =>
    simp only [SM.bind_apply, SM.lift_apply]
    split <;> rfl

end Npy
