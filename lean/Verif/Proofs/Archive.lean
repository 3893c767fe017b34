import Verif.Proofs.Npz
/-! Archives read back. -/

namespace Npy

/-- A reader over the archive `b` with this directory, wherever its stream stands. -/
structure RInv (r : Reader) (b : Bytes) (m : EntryMap) (ks : List Bytes) : Prop where
  ready : r.input.Ready b
  entries : r.entries = m
  keys : r.keys = ks

theorem readerReadFile_eq (codec : Codec) (name : Bytes) (r : Reader) :
    Reader.readFile codec name r = ((Npy.readFile codec r.entries name r.input).1,
      { r with input := (Npy.readFile codec r.entries name r.input).2 }) := rfl

theorem lookup_items {items : List (FileEntry × Bytes)} (n : Bytes) :
    (entryMapOf (items.map (·.1))).lookup n = (items.reverse.find? (fun i => i.1.filename = n)).map (·.1) := by
  rw [lookup_reverse_map, ← List.map_reverse, List.find?_map]
  rfl

theorem forall₂_mem_right {α β : Type _} {R : α → β → Prop} {as : List α} {bs : List β} (h : List.Forall₂ R as bs)
    {b : β} (hb : b ∈ bs) : ∃ a ∈ as, R a b := by
  induction h with
  | nil => simp at hb
  | @cons a b' as bs hab _ ih =>
    rcases List.mem_cons.1 hb with rfl | hb
    · exact ⟨a, by simp, hab⟩
    · obtain ⟨a', h1, h2⟩ := ih hb
      exact ⟨a', by simp [h1], h2⟩

theorem forall₂_map_eq {α β γ : Type _} {R : α → β → Prop} {f : α → γ} {g : β → γ} (hfg : ∀ a b, R a b → f a = g b)
    {as : List α} {bs : List β} (h : List.Forall₂ R as bs) : as.map f = bs.map g := by
  induction h with
  | nil => rfl
  | cons hab _ ih => rw [List.map_cons, List.map_cons, ih, hfg _ _ hab]

/-- Payload of an entry: what `read_file` makes of it before checking the sum (npz.cpp:406-410). -/
def decompressWith (codec : Codec) (method : Nat) (d : Bytes) : Except Err Bytes :=
  if method = DEFLATED then codec.inflate d else .ok d

/-- Decompression and check of the sum (npz.cpp:405-421). -/
def finish (codec : Codec) (method crc : Nat) (d : Bytes) : Except Err Bytes :=
  match decompressWith codec method d with
  | .error e => .error e
  | .ok bytes => if npyCrc32 bytes ≠ crc then .error (.throw (.runtimeError .crcMismatch)) else .ok bytes

/-- The last entry with this name. -/
def findItem (items : List (FileEntry × Bytes)) (n : Bytes) : Option (FileEntry × Bytes) :=
  items.reverse.find? (fun i => i.1.filename = n)

/-- The entry a reader uses for a name. -/
def findName (items : List (FileEntry × Bytes)) (name : Bytes) : Option (FileEntry × Bytes) :=
  match findItem items name with
  | some i => some i
  | none => findItem items (name ++ b!".npy")

/-- An archive holding the entries `items`, of which the directory's 16-bit count covers `vis`. -/
structure Arch (b : Bytes) (items vis : List (FileEntry × Bytes)) : Prop where
  bytes : ∃ size < 2 ^ 32, b = items.flatMap recBytes ++ (items.map (·.1)).flatMap centralHeader ++
    endOfCentralDirectory ⟨items.length % 2 ^ 16, size, (items.flatMap recBytes).length⟩
  len : (items.flatMap recBytes).length < 2 ^ 32
  item : ∀ i ∈ items, i.1.Ok ∧ i.2.length = i.1.compressedSize ∧ i.1.compressedSize < 2 ^ 32
  offs : ∀ a i c, items = a ++ i :: c → i.1.offset = (a.flatMap recBytes).length
  vis : vis = items.take (items.length % 2 ^ 16)

theorem arch_open {b : Bytes} {items vis : List (FileEntry × Bytes)} (h : Arch b items vis) {s : IStream} (hs : s.Ready b) :
    ∃ r, Reader.open s = .ok r ∧
      RInv r b (entryMapOf (vis.map (·.1))) (sortKeys (vis.map (·.1.filename))) := by
  obtain ⟨size, hsz, c3⟩ := h.bytes
  obtain ⟨k, hk⟩ : ∃ k, k = items.length % 2 ^ 16 := ⟨_, rfl⟩
  have hkl : k ≤ items.length := by rw [hk]; exact Nat.mod_le _ _
  have hk16 : k < 2 ^ 16 := by rw [hk]; exact Nat.mod_lt _ (by decide)
  have hvis := h.vis
  rw [← hk] at hvis
  have hb : b = items.flatMap recBytes ++ (vis.map (·.1)).flatMap centralHeader ++
      ((items.drop k).map (·.1)).flatMap centralHeader ++
      endOfCentralDirectory ⟨(vis.map (·.1)).length, size, (items.flatMap recBytes).length⟩ := by
    rw [c3, ← hk, List.length_map, hvis, List.length_take, Nat.min_eq_left (by omega)]
    congr 1
    rw [List.append_assoc, ← List.flatMap_append, ← List.map_append, List.take_append_drop]
  obtain ⟨s', e1, e2⟩ := readEntries_ok (es := vis.map (·.1)) (by
      intro e he
      obtain ⟨i, hi, rfl⟩ := List.mem_map.1 he
      rw [hvis] at hi
      exact (h.item i (List.mem_of_mem_take hi)).1)
    (by rw [List.length_map, hvis, List.length_take]; omega) h.len hsz hb hs
  refine ⟨⟨s', entryMapOf (vis.map (·.1)), sortKeys ((vis.map (·.1)).map (·.filename))⟩, ?_,
    ⟨e2, rfl, ?_⟩⟩
  · simp only [Reader.open, hs.isOpen, Bool.not_true, Bool.false_eq_true, if_false]
    rw [e1]
  · show sortKeys _ = sortKeys _
    congr 1
    rw [List.map_map]
    rfl

theorem arch_read {b : Bytes} {items vis : List (FileEntry × Bytes)} (h : Arch b items vis) (codec : Codec)
    {r : Reader} {ks : List Bytes} (hr : RInv r b (entryMapOf (vis.map (·.1))) ks) (name : Bytes) :
    ∃ r', RInv r' b (entryMapOf (vis.map (·.1))) ks ∧
      Reader.readFile codec name r =
        (match findName vis name with
         | some i => finish codec i.1.compressionMethod i.1.crc32 i.2
         | none => .error (.throw (.invalidArgument .filename)), r') := by
  obtain ⟨size, hsz, c3⟩ := h.bytes
  have hlook : ∀ n, (entryMapOf (vis.map (·.1))).lookup n = (findItem vis n).map (·.1) := fun n => lookup_items n
  have hhit : ∀ n i, findItem vis n = some i → resolveName (entryMapOf (vis.map (·.1))) name = .ok n →
      ∃ r', RInv r' b (entryMapOf (vis.map (·.1))) ks ∧
        Reader.readFile codec name r = (finish codec i.1.compressionMethod i.1.crc32 i.2, r') := by
    intro n i h2 hres
    have hl : (entryMapOf (vis.map (·.1))).lookup n = some i.1 := by rw [hlook, h2]; rfl
    have him : i ∈ items := by
      have := List.mem_of_find?_eq_some h2
      rw [h.vis] at this
      exact List.mem_of_mem_take (List.mem_reverse.1 this)
    obtain ⟨pre, post, hsplit⟩ := List.append_of_mem him
    have hpre : (pre.flatMap recBytes).length < 2 ^ 32 := by
      have := h.len
      rw [hsplit, List.flatMap_append, List.length_append] at this; omega
    obtain ⟨T, hT⟩ : ∃ T, b = items.flatMap recBytes ++ T := ⟨_, by rw [c3, List.append_assoc]⟩
    have hb : b = pre.flatMap recBytes ++ recBytes i ++ (post.flatMap recBytes ++ T) := by
      rw [hT, hsplit]; simp
    obtain ⟨hok, hl2, hl3⟩ := h.item i him
    obtain ⟨s', e1, e2⟩ := readFile_found (codec := codec) hr.ready hb (h.offs pre i post hsplit) hpre hok hl2 hl3 hres hl
    refine ⟨{ r with input := s' }, ⟨e1, hr.entries, hr.keys⟩, ?_⟩
    rw [readerReadFile_eq, hr.entries, e2]
    simp only [Prod.mk.injEq]
    refine ⟨?_, trivial⟩
    unfold finish decompressWith
    rfl
  unfold findName
  match hA : findItem vis name with
  | some t =>
    apply hhit name t hA
    unfold resolveName
    rw [hlook, hA]
    rfl
  | none =>
    match hB : findItem vis (name ++ b!".npy") with
    | some t =>
      apply hhit _ t hB
      unfold resolveName
      rw [hlook, hlook, hA, hB]
      rfl
    | none =>
      refine ⟨r, hr, ?_⟩
      have : (SM.lift (resolveName (entryMapOf (vis.map (·.1))) name) : IM Bytes) r.input =
          (.error (.throw (.invalidArgument .filename)), r.input) := by
        simp only [SM.lift_apply, resolveName]
        rw [hlook, hlook, hA, hB]
        rfl
      have hrf : Npy.readFile codec (entryMapOf (vis.map (·.1))) name r.input =
          (.error (.throw (.invalidArgument .filename)), r.input) := by
        unfold Npy.readFile
        rw [SM.bind_error this]
      rw [readerReadFile_eq, hr.entries, hrf]
      rw [← hr.entries]

/-- The reader invariant survives every call. -/
theorem after_inv {b : Bytes} {items vis : List (FileEntry × Bytes)} (h : Arch b items vis) (cfg : Cfg) (codec : Codec)
    {r : Reader} {ks : List Bytes} (hr : RInv r b (entryMapOf (vis.map (·.1))) ks) (calls : List RdCall) :
    RInv (r.after cfg codec calls) b (entryMapOf (vis.map (·.1))) ks := by
  induction calls generalizing r with
  | nil => exact hr
  | cons c calls ih =>
    apply ih
    cases c with
    | read α ops name =>
      obtain ⟨r', h1, h2⟩ := arch_read h codec hr name
      have : (Reader.read cfg codec ops name r).2 = r' := by
        unfold Reader.read
        rw [SM.bind_apply, h2]
        split
        · rename_i heq
          simp only [Prod.mk.injEq] at heq
          rw [← heq.2]; rfl
        · rename_i heq
          simp only [Prod.mk.injEq] at heq
          rw [← heq.2]
      simp only [RdCall.run, this]
      exact h1
    | peek name =>
      obtain ⟨r', h1, h2⟩ := arch_read h codec hr name
      have : (Reader.peek cfg codec name r).2 = r' := by
        unfold Reader.peek
        rw [SM.bind_apply, h2]
        split
        · rename_i heq
          simp only [Prod.mk.injEq] at heq
          rw [← heq.2]; rfl
        · rename_i heq
          simp only [Prod.mk.injEq] at heq
          rw [← heq.2]
      simp only [RdCall.run, this]
      exact h1
    | contains name => exact hr
    | keys => exact hr

/-! ### Archives made by a writer -/

/-- A file as it comes back: compressed, cut to the 32-bit size, decompressed, checked. -/
def readBack (codec : Codec) (method : Nat) (f : Bytes) : Except Err Bytes :=
  match compressWith codec method f with
  | .error e => .error e
  | .ok d => finish codec method (npyCrc32 f) (d.take (d.length % 2 ^ 32))

/-- The relation between a write and its entry. -/
def WroteAs (cfg : Cfg) (codec : Codec) (method : Nat) (e : Endian) (p : Bytes × AnyTensor) (item : FileEntry × Bytes) : Prop :=
  ∃ f, saveToString cfg p.2.ops p.2.x e = .ok f ∧ ItemOf codec method p.1 f item

theorem WroteAs.finish {cfg : Cfg} {codec : Codec} {method : Nat} {e : Endian} {p : Bytes × AnyTensor}
    {item : FileEntry × Bytes} (h : WroteAs cfg codec method e p item) :
    finish codec item.1.compressionMethod item.1.crc32 item.2 =
      (saveToString cfg p.2.ops p.2.x e).bind (readBack codec method) := by
  obtain ⟨f, hf, ho⟩ := h
  obtain ⟨d, d1, d2, d3⟩ := ho.comp
  rw [hf]
  simp only [Except.bind, readBack, d1]
  rw [ho.method, ho.crc, d3]

/-- What a writer leaves behind is an archive. -/
theorem close_arch {cfg : Cfg} {codec : Codec} {e : Endian} {puts : List (Bytes × AnyTensor)} {w1 : Writer}
    {items : List (FileEntry × Bytes)} {meth : Nat} (i1 : WInv w1 items) (hm : meth < 2 ^ 16)
    (i3 : List.Forall₂ (WroteAs cfg codec meth e) puts items)
    (hlen : w1.str.length < 2 ^ 32) (hnames : ∀ p ∈ puts, (Spec.storedName p.1).length < 2 ^ 16) :
    ∃ w2, Writer.close w1 = (.ok (), w2) ∧ w2.closed = true ∧ Arch w2.str items (items.take (items.length % 2 ^ 16)) ∧
      List.Forall₂ (WroteAs cfg codec meth e) (puts.take (puts.length % 2 ^ 16)) (items.take (items.length % 2 ^ 16)) := by
  obtain ⟨w2, c1, c2, size, hsz, c3⟩ := close_inv i1
  have hbuf : (items.flatMap recBytes).length < 2 ^ 32 := by rw [← i1.buf]; exact hlen
  have hil : puts.length = items.length := i3.length_eq
  refine ⟨w2, c1, c2, ⟨⟨size, hsz, ?_⟩, hbuf, ?_, ?_, rfl⟩, ?_⟩
  · rw [c3, Nat.mod_eq_of_lt hbuf]
  · intro i hi
    obtain ⟨p, hp, f, hf, ho⟩ := forall₂_mem_right i3 hi
    obtain ⟨d, d1, d2, d3⟩ := ho.comp
    have hdm : d.length % 2 ^ 32 < 2 ^ 32 := Nat.mod_lt _ (by decide)
    refine ⟨⟨?_, ?_, ?_, ?_, ?_, ?_⟩, ?_, ?_⟩
    · rw [ho.filename]; exact hnames p hp
    · rw [ho.crc]; exact BitVec.isLt _
    · rw [d2]; omega
    · rw [ho.usize]; omega
    · rw [ho.method]; exact hm
    · have := ho.offset; omega
    · rw [d2, d3, List.length_take]; exact Nat.min_eq_left (Nat.mod_le _ _)
    · rw [d2]; omega
  · intro a i c hs
    rw [i1.offs a i c hs, Nat.mod_eq_of_lt]
    rw [hs, List.flatMap_append, List.length_append] at hbuf; omega
  · rw [hil]; exact List.forall₂_take _ i3

/-- What the writes leave behind is an archive. -/
theorem writer_arch {cfg : Cfg} {codec : Codec} {puts : List (Bytes × AnyTensor)} {w0 w1 : Writer} (h0 : WInv w0 [])
    (hm : w0.method < 2 ^ 16) (h1 : Writer.writeAll cfg codec puts w0 = (.ok (), w1))
    (hlen : w1.str.length < 2 ^ 32) (hnames : ∀ p ∈ puts, (Spec.storedName p.1).length < 2 ^ 16) :
    ∃ w2 items vis, Writer.close w1 = (.ok (), w2) ∧ w2.closed = true ∧ Arch w2.str items vis ∧
      List.Forall₂ (WroteAs cfg codec w0.method w0.endianness) puts items ∧
      List.Forall₂ (WroteAs cfg codec w0.method w0.endianness) (puts.take (puts.length % 2 ^ 16)) vis := by
  obtain ⟨items, i1, i2, i3⟩ := writeAll_inv h0 h1
  rw [List.nil_append] at i1
  obtain ⟨w2, c1, c2, c3, c4⟩ := close_arch i1 hm i3 hlen hnames
  exact ⟨w2, items, _, c1, c2, c3, i3, c4⟩

theorem writeAll_append {cfg : Cfg} {codec : Codec} (a b : List (Bytes × AnyTensor)) {w w2 : Writer}
    (h : Writer.writeAll cfg codec (a ++ b) w = (.ok (), w2)) :
    ∃ w1, Writer.writeAll cfg codec a w = (.ok (), w1) ∧ Writer.writeAll cfg codec b w1 = (.ok (), w2) := by
  induction a generalizing w with
  | nil => exact ⟨w, rfl, h⟩
  | cons p a ih =>
    obtain ⟨name, t⟩ := p
    rw [List.cons_append, Writer.writeAll] at h
    obtain ⟨⟨⟩, w1, h1, h2⟩ := SM.of_bind_ok h
    obtain ⟨w', g1, g2⟩ := ih h2
    exact ⟨w', by rw [Writer.writeAll, SM.bind_ok h1, g1], g2⟩

/-- Another payload of the same length in place of one entry's: still an archive with the same directory. -/
theorem Arch.replace {b : Bytes} {a c : List (FileEntry × Bytes)} {i : FileEntry × Bytes}
    {vis : List (FileEntry × Bytes)} (h : Arch b (a ++ i :: c) vis) :
    ∃ P Q, b = P ++ i.2 ++ Q ∧ P.length = (a.flatMap recBytes).length + ((recBytes i).length - i.2.length) ∧
      ∀ d : Bytes, d.length = i.2.length → Arch (P ++ d ++ Q) (a ++ (i.1, d) :: c)
        ((a ++ (i.1, d) :: c).take ((a ++ (i.1, d) :: c).length % 2 ^ 16)) := by
  obtain ⟨size, hsz, hb⟩ := h.bytes
  obtain ⟨hd, hhd⟩ : ∃ hd, hd = localHeader i.1 (decide (i.1.uncompressedSize > ZIP64_LIMIT ∨ i.1.compressedSize > ZIP64_LIMIT)) := ⟨_, rfl⟩
  have hrec : ∀ d, recBytes (i.1, d) = hd ++ d := fun d => by rw [hhd]; rfl
  have hri : recBytes i = hd ++ i.2 := hrec i.2
  have hflat : ∀ d : Bytes, (a ++ (i.1, d) :: c).flatMap recBytes = a.flatMap recBytes ++ hd ++ d ++ c.flatMap recBytes := by
    intro d
    rw [List.flatMap_append, List.flatMap_cons, hrec]
    simp only [List.append_assoc]
  have hflen : ∀ d : Bytes, d.length = i.2.length →
      ((a ++ (i.1, d) :: c).flatMap recBytes).length = ((a ++ i :: c).flatMap recBytes).length := by
    intro d hdl
    have e := hflat i.2
    rw [show (i.1, i.2) = i from rfl] at e
    rw [hflat d, e]
    simp only [List.length_append, hdl]
  have hmap : ∀ d : Bytes, (a ++ (i.1, d) :: c).map (·.1) = (a ++ i :: c).map (·.1) := by
    intro d; simp
  refine ⟨a.flatMap recBytes ++ hd, c.flatMap recBytes ++ ((a ++ i :: c).map (·.1)).flatMap centralHeader ++
    endOfCentralDirectory ⟨(a ++ i :: c).length % 2 ^ 16, size, ((a ++ i :: c).flatMap recBytes).length⟩, ?_, ?_, ?_⟩
  · have e := hflat i.2
    rw [show (i.1, i.2) = i from rfl] at e
    rw [hb]
    conv_lhs => rw [e]
    rw [e]
    simp only [List.append_assoc]
  · rw [hri]; simp
  · intro d hdl
    refine ⟨⟨size, hsz, ?_⟩, ?_, ?_, ?_, rfl⟩
    · have hcnt : (a ++ (i.1, d) :: c).length = (a ++ i :: c).length := by simp
      rw [hflen d hdl, hmap d, hcnt, hflat d]
      simp only [List.append_assoc]
    · rw [hflen d hdl]; exact h.len
    · intro j hj
      rcases List.mem_append.1 hj with hj | hj
      · exact h.item j (by simp [hj])
      · rcases List.mem_cons.1 hj with rfl | hj
        · obtain ⟨x, y, z⟩ := h.item i (by simp)
          exact ⟨x, by rw [← y, hdl], z⟩
        · exact h.item j (by simp [hj])
    · intro a' j c' hs
      -- positions of entries do not change
      have key : ∀ k, (((a ++ (i.1, d) :: c).take k).flatMap recBytes).length =
          (((a ++ i :: c).take k).flatMap recBytes).length := by
        intro k
        by_cases hk : k ≤ a.length
        · rw [List.take_append_of_le_length hk, List.take_append_of_le_length hk]
        · obtain ⟨m, rfl⟩ : ∃ m, k = a.length + (m + 1) := ⟨k - a.length - 1, by omega⟩
          rw [List.take_length_add_append, List.take_length_add_append, List.take_succ_cons, List.take_succ_cons]
          simp only [List.flatMap_append, List.flatMap_cons, List.length_append]
          have : (recBytes (i.1, d)).length = (recBytes i).length := by rw [hrec, hri]; simp [hdl]
          rw [this]
      have hj : (a ++ i :: c)[a'.length]? = some (if a'.length = a.length then i else j) := by
        have h1 : (a ++ (i.1, d) :: c)[a'.length]? = some j := by rw [hs]; simp
        by_cases hlt : a'.length < a.length
        · rw [List.getElem?_append_left hlt] at h1 ⊢
          rw [if_neg (by omega)]; exact h1
        · by_cases heq : a'.length = a.length
          · rw [if_pos heq, heq]; simp
          · obtain ⟨m, hm⟩ : ∃ m, a'.length - a.length = m + 1 := ⟨a'.length - a.length - 1, by omega⟩
            rw [List.getElem?_append_right (by omega), hm, List.getElem?_cons_succ] at h1 ⊢
            rw [if_neg heq]; exact h1
      have hoff : j.1.offset = (if a'.length = a.length then i else j).1.offset := by
        split
        · rename_i heq
          have h1 : (a ++ (i.1, d) :: c)[a'.length]? = some j := by rw [hs]; simp
          rw [heq] at h1
          simp at h1
          rw [← h1]
        · rfl
      obtain ⟨hlt, hget⟩ := List.getElem?_eq_some_iff.1 hj
      have hsplit : a ++ i :: c = (a ++ i :: c).take a'.length ++ (if a'.length = a.length then i else j) ::
          (a ++ i :: c).drop (a'.length + 1) := by
        rw [← hget, ← List.drop_eq_getElem_cons hlt, List.take_append_drop]
      rw [hoff, h.offs _ _ _ hsplit, ← key, hs]
      simp

theorem findItem_wrote {cfg : Cfg} {codec : Codec} {method : Nat} {e : Endian} {puts : List (Bytes × AnyTensor)}
    {items : List (FileEntry × Bytes)} (h : List.Forall₂ (WroteAs cfg codec method e) puts items) (n : Bytes) :
    (Spec.lastWrite puts n = none ∧ findItem items n = none) ∨
      ∃ p i, Spec.lastWrite puts n = some p.2 ∧ p ∈ puts ∧ findItem items n = some i ∧ i ∈ items ∧
        WroteAs cfg codec method e p i := by
  have := find?_forall₂ (p := fun w : Bytes × AnyTensor => decide (Spec.storedName w.1 = n))
    (q := fun i : FileEntry × Bytes => decide (i.1.filename = n)) (R := WroteAs cfg codec method e)
    (by rintro a b ⟨f, -, ho⟩; rw [ho.filename]) (List.forall₂_reverse_iff.2 h)
  rcases this with ⟨h1, h2⟩ | ⟨p, i, h1, h2, h3⟩
  · exact .inl ⟨by unfold Spec.lastWrite; rw [h1]; rfl, h2⟩
  · refine .inr ⟨p, i, by unfold Spec.lastWrite; rw [h1]; rfl, ?_, h2, ?_, h3⟩
    · exact List.mem_reverse.1 (List.mem_of_find?_eq_some h1)
    · exact List.mem_reverse.1 (List.mem_of_find?_eq_some h2)

theorem findName_wrote {cfg : Cfg} {codec : Codec} {method : Nat} {e : Endian} {puts : List (Bytes × AnyTensor)}
    {items : List (FileEntry × Bytes)} (h : List.Forall₂ (WroteAs cfg codec method e) puts items) (name : Bytes) :
    (Spec.lookup puts name = none ∧ findName items name = none) ∨
      ∃ p i, Spec.lookup puts name = some p.2 ∧ p ∈ puts ∧ findName items name = some i ∧ i ∈ items ∧
        WroteAs cfg codec method e p i := by
  unfold Spec.lookup findName
  rcases findItem_wrote h name with ⟨h1, h2⟩ | ⟨p, i, h1, h2, h3, h4, h5⟩
  · rw [h1, h2]
    exact findItem_wrote h (name ++ b!".npy")
  · rw [h1, h3]
    exact .inr ⟨p, i, rfl, h2, rfl, h4, h5⟩

/-- Reading any name from the archive made by a sequence of writes, after any calls. -/
theorem writer_reads {cfg : Cfg} {codec : Codec} {puts : List (Bytes × AnyTensor)} {w0 w1 : Writer} (h0 : WInv w0 [])
    (hm : w0.method < 2 ^ 16) (h1 : Writer.writeAll cfg codec puts w0 = (.ok (), w1))
    (hlen : w1.str.length < 2 ^ 32) (hnames : ∀ p ∈ puts, (Spec.storedName p.1).length < 2 ^ 16) :
    ∃ w2, Writer.close w1 = (.ok (), w2) ∧ w2.closed = true ∧
      ∀ s : IStream, s.Ready w2.str → ∃ r, Reader.open s = .ok r ∧
        r.keys = sortKeys ((puts.take (puts.length % 2 ^ 16)).map fun p => Spec.storedName p.1) ∧
        ∀ calls name,
          (Reader.readFile codec name (r.after cfg codec calls)).1 =
            (match Spec.lookup (puts.take (puts.length % 2 ^ 16)) name with
             | some t => (saveToString cfg t.ops t.x w0.endianness).bind (readBack codec w0.method)
             | none => .error (.throw (.invalidArgument .filename))) ∧
          (r.after cfg codec calls).contains name =
            (Spec.lastWrite (puts.take (puts.length % 2 ^ 16)) name).isSome ∧
          (r.after cfg codec calls).keys = r.keys := by
  obtain ⟨w2, items, vis, c1, c2, ha, -, hv⟩ := writer_arch h0 hm h1 hlen hnames
  refine ⟨w2, c1, c2, ?_⟩
  intro s hs
  obtain ⟨r, o1, o2⟩ := arch_open ha hs
  refine ⟨r, o1, ?_, ?_⟩
  · rw [o2.keys]
    congr 1
    refine (forall₂_map_eq ?_ hv).symm
    rintro a b ⟨f, -, ho⟩
    exact ho.filename.symm
  · intro calls name
    have hi := after_inv ha cfg codec o2 calls
    refine ⟨?_, ?_, by rw [hi.keys, o2.keys]⟩
    · obtain ⟨r', -, e⟩ := arch_read ha codec hi name
      rw [e]
      rcases findName_wrote hv name with ⟨h1, h2⟩ | ⟨p, i, h1, -, h2, -, h3⟩
      · rw [h1, h2]
      · rw [h1, h2]
        exact h3.finish
    · unfold Reader.contains
      rw [hi.entries, lookup_items]
      change ((findItem vis name).map (·.1)).isSome = _
      rcases findItem_wrote hv name with ⟨h1, h2⟩ | ⟨p, i, h1, -, h2, -, -⟩
      · rw [h1, h2]; rfl
      · rw [h1, h2]; rfl

/-- Writes succeed when the tensors can be saved and their files compressed. -/
theorem writeAll_ok {cfg : Cfg} {codec : Codec} (puts : List (Bytes × AnyTensor)) {w0 : Writer} {items : List (FileEntry × Bytes)}
    (h0 : WInv w0 items)
    (hs : ∀ p ∈ puts, ∃ f d, saveToString cfg p.2.ops p.2.x w0.endianness = .ok f ∧
      compressWith codec w0.method f = .ok d) :
    ∃ w1, Writer.writeAll cfg codec puts w0 = (.ok (), w1) := by
  induction puts generalizing w0 items with
  | nil => exact ⟨w0, rfl⟩
  | cons p puts ih =>
    obtain ⟨name, t⟩ := p
    obtain ⟨f, d, h1, h2⟩ := hs (name, t) (by simp)
    have h3 : ∃ w', Writer.write cfg codec t.ops name t.x w0 = (.ok (), w') := by
      unfold saveToString at h1
      simp only [Writer.write, h0.closed, Bool.false_eq_true, if_false]
      match hsv : save cfg t.ops t.x w0.endianness OStream.empty with
      | .error er => rw [hsv] at h1; simp [Except.map] at h1
      | .ok out =>
        rw [hsv] at h1
        simp only [Except.map, Except.ok.injEq] at h1
        simp only [Writer.writeFile, h0.closed, Bool.false_eq_true, if_false]
        rw [entryName_eq, h1]
        obtain ⟨item, e1, -, -⟩ := writeFile_healthy codec h0.healthy w0.entries name w0.method f h2
        rw [e1]
        exact ⟨_, rfl⟩
    obtain ⟨w', h3⟩ := h3
    obtain ⟨item, f', g1, g2, g3, g4⟩ := write_inv h0 h3
    have hme : w'.method = w0.method ∧ w'.endianness = w0.endianness := by rw [g4]; exact ⟨rfl, rfl⟩
    obtain ⟨w1, h4⟩ := ih g3 (by
      intro q hq
      rw [hme.1, hme.2]
      exact hs q (by simp [hq]))
    refine ⟨w1, ?_⟩
    rw [Writer.writeAll, SM.bind_ok h3, h4]

end Npy
