import Verif.Model.Npz
import Verif.Proofs.Stream
import Verif.Proofs.Bytes
/-! Reading back what the ZIP layer writes. -/

namespace Npy
variable {s : IStream}

/-- The values a `file_entry` object can hold (npy.h:386-404), with a name whose length the archive can record. -/
structure FileEntry.Ok (h : FileEntry) : Prop where
  name : h.filename.length < 2 ^ 16
  crc : h.crc32 < 2 ^ 32
  csize : h.compressedSize < 2 ^ 64
  usize : h.uncompressedSize < 2 ^ 64
  method : h.compressionMethod < 2 ^ 16
  offset : h.offset < 2 ^ 64

theorem getcFF_cons (h : s.good = true) (b : Byte) (r : Bytes) :
    getcFF (s.withRest (b :: r)) = (.ok b, s.withRest r) := by
  unfold getcFF
  rw [SM.bind_ok (IStream.getc_cons h b r)]
  rfl

theorem readLE_bytes (h : s.good = true) (bs r : Bytes) :
    readLE bs.length (s.withRest (bs ++ r)) = (.ok (leValue bs), s.withRest r) := by
  induction bs with
  | nil => rfl
  | cons b bs ih =>
    rw [List.length_cons, readLE, List.cons_append, SM.bind_ok (getcFF_cons h b _), SM.bind_ok ih]
    rfl

theorem readLE_leBytes (h : s.good = true) (k v : Nat) (r : Bytes) :
    readLE k (s.withRest (leBytes k v ++ r)) = (.ok (v % 256 ^ k), s.withRest r) := by
  have := readLE_bytes h (leBytes k v) r
  rw [leBytes_length, leValue_leBytes] at this
  exact this

theorem read16_w16 (h : s.good = true) {v : Nat} (hv : v < 2 ^ 16) (r : Bytes) :
    read16 (s.withRest (w16 v ++ r)) = (.ok v, s.withRest r) := by
  have := readLE_leBytes h 2 v r
  rw [Nat.mod_eq_of_lt (by omega)] at this
  exact this

theorem read32_w32 (h : s.good = true) {v : Nat} (hv : v < 2 ^ 32) (r : Bytes) :
    read32 (s.withRest (w32 v ++ r)) = (.ok v, s.withRest r) := by
  have := readLE_leBytes h 4 v r
  rw [Nat.mod_eq_of_lt (by omega)] at this
  exact this

theorem read64_w64 (h : s.good = true) {v : Nat} (hv : v < 2 ^ 64) (r : Bytes) :
    read64 (s.withRest (w64 v ++ r)) = (.ok v, s.withRest r) := by
  have := readLE_leBytes h 8 v r
  rw [Nat.mod_eq_of_lt (by omega)] at this
  exact this

/-- What `write32` leaves in the 32-bit field. -/
def field32 (v : Nat) : Nat := if v > ZIP64_LIMIT then ZIP64_PLACEHOLDER else v

theorem write32_eq (v : Nat) : write32 v = w32 (field32 v) := by
  unfold write32 field32; split <;> rfl

theorem field32_lt (v : Nat) : field32 v < 2 ^ 32 := by
  unfold field32 ZIP64_PLACEHOLDER ZIP64_LIMIT; split <;> omega

theorem field32_placeholder (v : Nat) : field32 v = ZIP64_PLACEHOLDER ↔ v > ZIP64_LIMIT := by
  unfold field32 ZIP64_PLACEHOLDER ZIP64_LIMIT; split <;> omega

theorem read4_bytes (h : s.good = true) (bs : Bytes) (hb : bs.length = 4) (r : Bytes) :
    read32 (s.withRest (bs ++ r)) = (.ok (leValue bs), s.withRest r) := by
  have := readLE_bytes h bs r
  rw [hb] at this
  exact this

theorem assertSig_ok (h : s.good = true) (sig r : Bytes) (hs : sig.length = 4) :
    assertSig sig (s.withRest (sig ++ r)) = (.ok (), s.withRest r) := by
  unfold assertSig
  rw [SM.bind_ok (IStream.read_append h sig r 4 hs), if_neg (by omega), if_neg (by simp)]
  rfl

theorem readName_ok (h : s.good = true) (name r : Bytes) :
    readName name.length (s.withRest (name ++ r)) = (.ok name, s.withRest r) := by
  unfold readName
  rw [SM.bind_ok (IStream.read_append h name r _ rfl)]
  simp

theorem readSharedHeader_ok (h : s.good = true) (b e : FileEntry) (he : e.Ok) (r : Bytes) :
    readSharedHeader b (s.withRest (sharedHeader e ++ r)) =
      (.ok ({ b with compressionMethod := e.compressionMethod, crc32 := e.crc32,
                     compressedSize := field32 e.compressedSize,
                     uncompressedSize := field32 e.uncompressedSize }, e.filename.length), s.withRest r) := by
  unfold readSharedHeader sharedHeader
  rw [write32_eq, write32_eq]
  simp only [List.append_assoc]
  rw [SM.bind_ok (read16_w16 h (by decide) _), SM.bind_ok (read16_w16 h he.method _),
    SM.bind_ok (read4_bytes h TIME rfl _), SM.bind_ok (read32_w32 h he.crc _),
    SM.bind_ok (read32_w32 h (field32_lt _) _), SM.bind_ok (read32_w32 h (field32_lt _) _),
    SM.bind_ok (read16_w16 h he.name _)]
  rfl

/-- The ZIP64 extra field read with the 32-bit fields still in place. -/
theorem readZip64Extra_ok (h : s.good = true) (e : FileEntry) (he : e.Ok) (off : Bool) (o : Nat)
    (ho : off = true → o = field32 e.offset) (r : Bytes) :
    readZip64Extra { e with compressedSize := field32 e.compressedSize, uncompressedSize := field32 e.uncompressedSize,
                            offset := o } off (s.withRest (zip64Extra e off ++ r)) =
      (.ok { e with offset := if off then e.offset else o }, s.withRest r) := by
  obtain ⟨n, c, cs, us, m, eo⟩ := e
  simp only at ho
  have hcs := he.csize
  have hus := he.usize
  have heo := he.offset
  simp only at hcs hus heo
  unfold readZip64Extra zip64Extra
  simp only [List.append_assoc]
  rw [SM.bind_ok (read16_w16 h (by decide) _), if_neg (by decide)]
  have hp : ∀ v, v > ZIP64_LIMIT → field32 v = ZIP64_PLACEHOLDER := fun v hv => (field32_placeholder v).2 hv
  have hq : ∀ v, ¬ v > ZIP64_LIMIT → field32 v = v ∧ v ≠ ZIP64_PLACEHOLDER := by
    intro v hv
    have h1 : field32 v = v := by unfold field32; rw [if_neg hv]
    exact ⟨h1, fun hc => hv ((field32_placeholder v).1 (by rw [h1, hc]))⟩
  have r8 := read16_w16 h (show 8 < 2 ^ 16 by decide)
  have r16 := read16_w16 h (show 16 < 2 ^ 16 by decide)
  have r24 := read16_w16 h (show 24 < 2 ^ 16 by decide)
  have r0 := read16_w16 h (show 0 < 2 ^ 16 by decide)
  by_cases h1 : us > ZIP64_LIMIT <;> by_cases h2 : cs > ZIP64_LIMIT
  all_goals
    first | have e1 := hp us h1 | have e1 := hq us h1
    first | have e2 := hp cs h2 | have e2 := hq cs h2
    cases off with
    | false =>
      simp [h1, h2, e1, e2, SM.bind_apply, r8, r16, r0, read64_w64 h hcs, read64_w64 h hus]
    | true =>
      rw [ho rfl]
      by_cases h3 : eo > ZIP64_LIMIT
      · have e3 := hp eo h3
        simp [h1, h2, h3, e1, e2, e3, SM.bind_apply, r8, r16, r24, r0, read64_w64 h hcs, read64_w64 h hus,
          read64_w64 h heo]
      · have e3 := hq eo h3
        simp [h1, h2, h3, e1, e2, e3, SM.bind_apply, r8, r16, r24, r0, read64_w64 h hcs, read64_w64 h hus,
          read64_w64 h heo]

theorem extra_zero (e : FileEntry) (off : Bool) (h : ¬ determineExtraLength e off > 0) :
    ¬ e.compressedSize > ZIP64_LIMIT ∧ ¬ e.uncompressedSize > ZIP64_LIMIT ∧
      (off = true → ¬ e.offset > ZIP64_LIMIT) := by
  unfold determineExtraLength at h
  refine ⟨?_, ?_, ?_⟩
  · intro hc; rw [if_pos hc] at h; omega
  · intro hc; rw [if_pos hc] at h; omega
  · rintro rfl hc; rw [if_pos (c := (true && decide (e.offset > ZIP64_LIMIT)) = true) (by simpa using hc)] at h; omega

theorem determineExtraLength_lt (e : FileEntry) (off : Bool) : determineExtraLength e off < 2 ^ 16 := by
  unfold determineExtraLength
  split <;> split <;> split <;> omega

theorem readCentralHeader_ok (h : s.good = true) (e : FileEntry) (he : e.Ok) (r : Bytes) :
    readCentralHeader (s.withRest (centralHeader e ++ r)) = (.ok e, s.withRest r) := by
  unfold readCentralHeader centralHeader
  simp only [List.append_assoc]
  rw [SM.bind_ok (assertSig_ok h CD_HEADER_SIG _ rfl), SM.bind_ok (read16_w16 h (by decide) _),
    SM.bind_ok (read16_w16 h (by split <;> decide) _), if_neg (by split <;> decide),
    SM.bind_ok (readSharedHeader_ok h _ e he _)]
  simp only []
  rw [SM.bind_ok (read16_w16 h (determineExtraLength_lt e true) _), SM.bind_ok (read16_w16 h (by decide) _),
    SM.bind_ok (read16_w16 h (by decide) _), SM.bind_ok (read16_w16 h (by decide) _),
    SM.bind_ok (read4_bytes h EXTERNAL_ATTR rfl _), write32_eq, SM.bind_ok (read32_w32 h (field32_lt _) _),
    SM.bind_ok (readName_ok h _ _)]
  by_cases hx : determineExtraLength e true > 0
  · rw [if_pos hx, if_pos hx]
    exact readZip64Extra_ok h e he true _ (fun _ => rfl) r
  · rw [if_neg hx, if_neg hx]
    obtain ⟨h1, h2, h3⟩ := extra_zero e true hx
    simp [field32, h1, h2, h3 rfl]

theorem readLocalHeader_ok (h : s.good = true) (e : FileEntry) (he : e.Ok) (z : Bool) (r : Bytes) :
    readLocalHeader (s.withRest (localHeader e z ++ r)) = (.ok { e with offset := 0 }, s.withRest r) := by
  unfold readLocalHeader localHeader
  simp only [List.append_assoc]
  rw [SM.bind_ok (assertSig_ok h LOCAL_HEADER_SIG _ rfl), SM.bind_ok (read16_w16 h (by split <;> decide) _),
    if_neg (by split <;> decide), SM.bind_ok (readSharedHeader_ok h _ e he _)]
  simp only []
  rw [SM.bind_ok (read16_w16 h (determineExtraLength_lt e false) _), SM.bind_ok (readName_ok h _ _)]
  by_cases hx : determineExtraLength e false > 0
  · rw [if_pos hx, if_pos hx]
    have := readZip64Extra_ok h e he false 0 (by simp) r
    simpa [FileEntry.blank] using this
  · rw [if_neg hx, if_neg hx]
    obtain ⟨h1, h2, -⟩ := extra_zero e false hx
    simp [field32, h1, h2, FileEntry.blank]

theorem readEndOfCentralDirectory_ok (h : s.good = true) (n size off : Nat) (hn : n < 2 ^ 16) (hs : size < 2 ^ 32)
    (ho : off < 2 ^ 32) :
    ∃ r, readEndOfCentralDirectory (s.withRest (endOfCentralDirectory ⟨n, size, off⟩)) = (.ok ⟨n, size, off⟩, s.withRest r) := by
  refine ⟨w16 0, ?_⟩
  unfold readEndOfCentralDirectory endOfCentralDirectory
  simp only [List.append_assoc]
  rw [SM.bind_ok (assertSig_ok h CD_END_SIG _ rfl), SM.bind_ok (read16_w16 h (by decide) _),
    SM.bind_ok (read16_w16 h (by decide) _), SM.bind_ok (read16_w16 h hn _), SM.bind_ok (read16_w16 h hn _),
    SM.bind_ok (read32_w32 h hs _), SM.bind_ok (read32_w32 h ho _)]
  rfl

theorem endOfCentralDirectory_length (d : CentralDirectory) : (endOfCentralDirectory d).length = 22 := by
  simp [endOfCentralDirectory, w16, w32, CD_END_SIG]

/-- The map built from a list of directory entries in order: the newest in front. -/
def entryMapOf (es : List FileEntry) : EntryMap := (es.map fun e => (e.filename, e)).reverse

theorem readEntriesLoop_ok (h : s.good = true) (es : List FileEntry) (hes : ∀ e ∈ es, e.Ok) (m : EntryMap)
    (ks : List Bytes) (r : Bytes) :
    readEntriesLoop es.length m ks (s.withRest (es.flatMap centralHeader ++ r)) =
      (.ok (entryMapOf es ++ m, ks ++ es.map (·.filename)), s.withRest r) := by
  induction es generalizing m ks with
  | nil => simp [readEntriesLoop, entryMapOf]
  | cons e es ih =>
    rw [List.length_cons, readEntriesLoop, List.flatMap_cons, List.append_assoc,
      SM.bind_ok (readCentralHeader_ok h e (hes e (by simp)) _), ih (fun e he => hes e (by simp [he]))]
    simp [entryMapOf]

/-- A stream over `b` in good order, wherever it stands. -/
structure IStream.Ready (s : IStream) (b : Bytes) : Prop where
  all : s.all = b
  fail : s.fail = false
  isOpen : s.isOpen = true

theorem seekg_ready {s : IStream} {b : Bytes} (h : s.Ready b) (off : Nat) (ho : off ≤ b.length) :
    ∃ s', IStream.seekg off s = (.ok (), s') ∧ s'.Ready b ∧ s'.good = true ∧ s' = s'.withRest (b.drop off) := by
  refine ⟨{ s with eof := false, rest := b.drop off }, ?_, ⟨h.all, h.fail, h.isOpen⟩, ?_, rfl⟩
  · have : ¬ ((off : Int) < 0) := by omega
    simp [IStream.seekg, h.fail, h.isOpen, this, h.all, ho]
  · simp [IStream.good, h.fail]

theorem ready_withRest {s : IStream} {b : Bytes} (h : s.Ready b) (r : Bytes) : (s.withRest r).Ready b :=
  ⟨h.all, h.fail, h.isOpen⟩

theorem toStreamoff_nat {n : Nat} (h : n < 2 ^ 63) : toStreamoff n = (n : Int) := by
  unfold toStreamoff; rw [if_pos h]

/-- Opening an archive: anything, directory entries, anything, the end record. -/
theorem readEntries_ok {b pre mid : Bytes} {es : List FileEntry} (hes : ∀ e ∈ es, e.Ok) (hn : es.length < 2 ^ 16)
    (hp : pre.length < 2 ^ 32) {size : Nat} (hs : size < 2 ^ 32)
    (hb : b = pre ++ es.flatMap centralHeader ++ mid ++ endOfCentralDirectory ⟨es.length, size, pre.length⟩)
    (h : s.Ready b) :
    ∃ s', readEntries s = (.ok (entryMapOf es, sortKeys (es.map (·.filename))), s') ∧ s'.Ready b := by
  unfold readEntries
  have hbl : b.length = (pre ++ es.flatMap centralHeader ++ mid).length + 22 := by
    rw [hb, List.length_append, endOfCentralDirectory_length]
  obtain ⟨s1, e1, r1, g1, w1⟩ := seekg_ready h (pre ++ es.flatMap centralHeader ++ mid).length (by omega)
  have e0 : IStream.seekgEnd (-(CD_END_SIZE : Int)) s = (.ok (), s1) := by
    rw [← e1]
    show IStream.seekg (s.all.length + -(CD_END_SIZE : Int)) s = _
    rw [h.all, hbl]
    congr 2
    simp [CD_END_SIZE]
  rw [SM.bind_ok e0, w1]
  have d1 : b.drop (pre ++ es.flatMap centralHeader ++ mid).length =
      endOfCentralDirectory ⟨es.length, size, pre.length⟩ := by
    rw [hb, List.drop_left' rfl]
  rw [d1]
  obtain ⟨r, hr⟩ := readEndOfCentralDirectory_ok g1 es.length size pre.length hn hs hp
  rw [SM.bind_ok hr]
  obtain ⟨s2, e2, r2, g2, w2⟩ := seekg_ready (ready_withRest r1 r) pre.length (by rw [hbl]; simp; omega)
  rw [toStreamoff_nat (by simp only; omega)]
  rw [SM.bind_ok e2, w2]
  have d2 : b.drop pre.length =
      es.flatMap centralHeader ++ (mid ++ endOfCentralDirectory ⟨es.length, size, pre.length⟩) := by
    rw [hb, List.append_assoc, List.append_assoc, List.drop_left' rfl]
  rw [d2]
  simp only
  rw [SM.bind_ok (readEntriesLoop_ok g2 es hes [] [] _)]
  simp only [List.append_nil, List.nil_append]
  exact ⟨_, rfl, ready_withRest r2 _⟩

end Npy
