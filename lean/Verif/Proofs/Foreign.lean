import Verif.Proofs.Archive
import Verif.Spec.Foreign
/-! Reading archives made by other programs. -/

namespace Npy
open Spec (ForeignItem foreignLocal foreignCentral ForeignArchive)

/-- Numbers least significant byte first, in the model's form. -/
theorem spec_le (k n : Nat) : Spec.le k n = leBytes k n := by
  induction k generalizing n with
  | zero => rfl
  | succ k ih =>
    rw [leBytes, ← ih]
    unfold Spec.le
    rw [List.range_succ_eq_map, List.map_cons, List.map_map]
    congr 1
    · simp only [Nat.pow_zero, Nat.div_one]
      apply UInt8.toNat.inj
      simp
    · refine List.map_congr_left fun i _ => ?_
      simp only [Function.comp, Nat.pow_succ, Nat.mul_comm (256 ^ i) 256, ← Nat.div_div_eq_div_mul]

theorem spec_le_length (k n : Nat) : (Spec.le k n).length = k := by simp [Spec.le]

variable {s : IStream}

theorem read16_le (h : s.good = true) {v : Nat} (hv : v < 2 ^ 16) (r : Bytes) :
    read16 (s.withRest (Spec.le 2 v ++ r)) = (.ok v, s.withRest r) := by rw [spec_le]; exact read16_w16 h hv r
theorem read32_le (h : s.good = true) {v : Nat} (hv : v < 2 ^ 32) (r : Bytes) :
    read32 (s.withRest (Spec.le 4 v ++ r)) = (.ok v, s.withRest r) := by rw [spec_le]; exact read32_w32 h hv r
theorem read64_le (h : s.good = true) {v : Nat} (hv : v < 2 ^ 64) (r : Bytes) :
    read64 (s.withRest (Spec.le 8 v ++ r)) = (.ok v, s.withRest r) := by rw [spec_le]; exact read64_w64 h hv r
/-- A field whose value is not used. -/
theorem read16_skip (h : s.good = true) (v : Nat) (r : Bytes) :
    read16 (s.withRest (Spec.le 2 v ++ r)) = (.ok (v % 256 ^ 2), s.withRest r) := by
  rw [spec_le]; exact readLE_leBytes h 2 v r
theorem read32_skip (h : s.good = true) (v : Nat) (r : Bytes) :
    read32 (s.withRest (Spec.le 4 v ++ r)) = (.ok (v % 256 ^ 4), s.withRest r) := by
  rw [spec_le]; exact readLE_leBytes h 4 v r
theorem read32_skip2 (h : s.good = true) (v w : Nat) (r : Bytes) :
    read32 (s.withRest (Spec.le 2 v ++ (Spec.le 2 w ++ r))) = (.ok (leValue (Spec.le 2 v ++ Spec.le 2 w)), s.withRest r) := by
  rw [← List.append_assoc]
  exact read4_bytes h _ (by simp [spec_le_length]) r

/-- The part common to both headers. -/
theorem readShared_foreign (h : s.good = true) {flags method time date crc c u n : Nat} (hm : method < 2 ^ 16) (hcrc : crc < 2 ^ 32)
    (hc : c < 2 ^ 32) (hu : u < 2 ^ 32) (hn : n < 2 ^ 16) (r : Bytes) :
    readSharedHeader FileEntry.blank (s.withRest (Spec.le 2 flags ++ (Spec.le 2 method ++ (Spec.le 2 time ++
      (Spec.le 2 date ++ (Spec.le 4 crc ++ (Spec.le 4 c ++ (Spec.le 4 u ++ (Spec.le 2 n ++ r))))))))) =
      (.ok (⟨[], crc, c, u, method, 0⟩, n), s.withRest r) := by
  unfold readSharedHeader
  rw [SM.bind_ok (read16_skip h _ _), SM.bind_ok (read16_le h hm _), SM.bind_ok (read32_skip2 h _ _ _), SM.bind_ok (read32_le h hcrc _),
    SM.bind_ok (read32_le h hc _), SM.bind_ok (read32_le h hu _), SM.bind_ok (read16_le h hn _)]
  rfl

/-- Skipping ahead within the data. -/
theorem seekgCur_skip (h : s.good = true) (ho : s.isOpen = true) (x r : Bytes) (hsuf : x ++ r <:+ s.all) :
    IStream.seekgCur x.length (s.withRest (x ++ r)) = (.ok (), s.withRest r) := by
  obtain ⟨p, hp⟩ := hsuf
  have h1 : (s.withRest (x ++ r)).pos = p.length := by
    simp only [IStream.pos, IStream.withRest_all, IStream.withRest_rest, ← hp, List.length_append]; omega
  have hl : s.all.length = p.length + (x.length + r.length) := by rw [← hp]; simp
  have hd : s.all.drop (p.length + x.length) = r := by
    rw [← hp, ← List.append_assoc, List.drop_left' (by simp)]
  obtain ⟨he, hf⟩ := (IStream.good_iff s).1 h
  simp only [IStream.seekgCur, h1]
  have hc : ((p.length : Int) + (x.length : Int)) = ((p.length + x.length : Nat) : Int) := by omega
  have hn : ¬ (((p.length + x.length : Nat) : Int) < 0) := by omega
  rw [hc]
  have hb : p.length + x.length ≤ s.all.length := by omega
  simp only [IStream.seekg, IStream.withRest_fail, hf, IStream.withRest_isOpen, ho, hn, IStream.withRest_all, Int.toNat_natCast, hb]
  simp only [Bool.false_eq_true, if_false, decide_false, Bool.not_true, Bool.or_false, decide_true, Bool.or_true, if_true, hd]
  rw [IStream.withRest, IStream.withRest]
  simp [he, hf, ho]

/-- The directory entry of a foreign file. -/
def foreignEntry (z : ForeignItem) : FileEntry := ⟨z.name, z.crc, z.data.length, z.size, z.method, z.offset⟩

theorem readCentral_foreign (h : s.good = true) {z : ForeignItem} (hz : z.Ok) (r : Bytes) :
    readCentralHeader (s.withRest (foreignCentral z ++ r)) = (.ok (foreignEntry z), s.withRest r) := by
  unfold readCentralHeader foreignCentral
  simp only [List.append_assoc]
  have hd := hz.data
  have hs := hz.size
  have hv := hz.version
  rw [show ([0x50, 0x4B, 1, 2] : Bytes) = CD_HEADER_SIG from rfl, SM.bind_ok (assertSig_ok h CD_HEADER_SIG _ rfl)]
  rw [SM.bind_ok (read16_skip h _ _), SM.bind_ok (read16_le h (by omega) _), if_neg (by unfold ZIP64_VERSION; omega),
    SM.bind_ok (readShared_foreign h hz.method hz.crc (by omega) (by omega) hz.name _)]
  simp only []
  rw [SM.bind_ok (read16_le h (by decide) _), SM.bind_ok (read16_le h (by decide) _), SM.bind_ok (read16_skip h _ _), SM.bind_ok (read16_skip h _ _), SM.bind_ok (read32_skip h _ _),
    SM.bind_ok (read32_le h hz.offset _), SM.bind_ok (readName_ok h _ _), if_neg (by decide)]
  rfl

theorem readLocal_foreign (h : s.good = true) (ho : s.isOpen = true) {z : ForeignItem} (hz : z.Ok) (r : Bytes)
    (hsuf : foreignLocal z ++ r <:+ s.all) :
    readLocalHeader (s.withRest (foreignLocal z ++ r)) = (.ok { foreignEntry z with offset := 0 }, s.withRest (z.data ++ r)) := by
  have hd := hz.data
  have hs := hz.size
  have hv := hz.localVersion
  obtain ⟨fs, fe⟩ : ∃ fs, fs = (if z.form = .zip64 then Spec.le 4 0xFFFFFFFF ++ Spec.le 4 0xFFFFFFFF else
    Spec.le 4 z.data.length ++ Spec.le 4 z.size) := ⟨_, rfl⟩
  obtain ⟨c, u, hfs, hc, hu⟩ : ∃ c u, fs = Spec.le 4 c ++ Spec.le 4 u ∧ c = (if z.form = .zip64 then 0xFFFFFFFF else z.data.length) ∧
      u = (if z.form = .zip64 then 0xFFFFFFFF else z.size) := by
    rw [fe]; split <;> exact ⟨_, _, rfl, rfl, rfl⟩
  have hc32 : c < 2 ^ 32 := by rw [hc]; split <;> omega
  have hu32 : u < 2 ^ 32 := by rw [hu]; split <;> omega
  obtain ⟨X, hX⟩ : ∃ X, X = (if z.form = .plain then [] else Spec.le 2 1 ++ Spec.le 2 16 ++ Spec.le 8 z.size ++ Spec.le 8 z.data.length) := ⟨_, rfl⟩
  obtain ⟨k, hk⟩ : ∃ k, k = (if z.form = .plain then 0 else 20) := ⟨_, rfl⟩
  have hk16 : k < 2 ^ 16 := by rw [hk]; split <;> omega
  have hfl : foreignLocal z ++ r = [0x50, 0x4B, 3, 4] ++ (Spec.le 2 z.localVersion ++ (Spec.le 2 z.flags ++ (Spec.le 2 z.method ++
      (Spec.le 2 z.time ++ (Spec.le 2 z.date ++ (Spec.le 4 z.crc ++ (Spec.le 4 c ++ (Spec.le 4 u ++ (Spec.le 2 z.name.length ++
      (Spec.le 2 k ++ (z.name ++ (X ++ (z.data ++ r))))))))))))) := by
    unfold foreignLocal
    rw [← fe, ← hX, ← hk, hfs]
    simp only [List.append_assoc]
  rw [hfl] at hsuf ⊢
  have hsX : X ++ (z.data ++ r) <:+ s.all := by
    have hr : ∀ {a c : Bytes}, a ++ c <:+ s.all → c <:+ s.all := fun h => (List.suffix_append _ _).trans h
    iterate 12 replace hsuf := hr hsuf
    exact hsuf
  unfold readLocalHeader
  rw [show ([0x50, 0x4B, 3, 4] : Bytes) = LOCAL_HEADER_SIG from rfl, SM.bind_ok (assertSig_ok h LOCAL_HEADER_SIG _ rfl), SM.bind_ok (read16_le h (by omega) _),
    if_neg (by unfold ZIP64_VERSION; omega)]
  rw [SM.bind_ok (readShared_foreign h hz.method hz.crc hc32 hu32 hz.name _)]
  simp only []
  rw [SM.bind_ok (read16_le h hk16 _), SM.bind_ok (readName_ok h _ _)]
  have hp1 : ¬ z.size = ZIP64_PLACEHOLDER := by unfold ZIP64_PLACEHOLDER; omega
  have hp2 : ¬ z.data.length = ZIP64_PLACEHOLDER := by unfold ZIP64_PLACEHOLDER; omega
  have hp3 : (4294967295 = ZIP64_PLACEHOLDER) = True := by simp [ZIP64_PLACEHOLDER]
  match hform : z.form with
  | .plain =>
    rw [hform] at hk hX hc hu
    simp only [if_true] at hk hX
    simp only [reduceCtorEq, if_false] at hc hu
    subst hk hX hc hu
    rw [if_neg (by decide)]
    rfl
  | .zip64 =>
    rw [hform] at hk hX hc hu
    simp only [reduceCtorEq, if_false] at hk hX
    simp only [if_true] at hc hu
    subst hk hX hc hu
    rw [if_pos (by decide)]
    simp only [List.append_assoc]
    unfold readZip64Extra
    rw [SM.bind_ok (read16_le h (by decide) _), if_neg (by decide), SM.bind_ok (read16_le h (by decide) _)]
    simp [SM.bind_apply, read64_le h (v := z.size) (by omega), read64_le h (v := z.data.length) (by omega), hp3, foreignEntry]
  | .both =>
    rw [hform] at hk hX hc hu
    simp only [reduceCtorEq, if_false] at hk hX hc hu
    subst hk hX hc hu
    rw [if_pos (by decide)]
    have hs2 : (Spec.le 8 z.size ++ Spec.le 8 z.data.length) ++ (z.data ++ r) <:+ s.all := by
      refine List.IsSuffix.trans ?_ hsX
      simp only [List.append_assoc]
      rw [← List.append_assoc (Spec.le 2 1)]
      exact List.suffix_append _ _
    have hsk := seekgCur_skip h ho _ _ hs2
    rw [show (Spec.le 8 z.size ++ Spec.le 8 z.data.length).length = 16 by simp [spec_le_length]] at hsk
    simp only [List.append_assoc] at hsk ⊢
    unfold readZip64Extra
    rw [SM.bind_ok (read16_le h (by decide) _), if_neg (by decide), SM.bind_ok (read16_le h (by decide) _)]
    simp only [Nat.cast_ofNat] at hsk
    simp [SM.bind_apply, hp1, hp2, foreignEntry, hsk]

theorem readEntriesLoop_foreign (h : s.good = true) (zs : List ForeignItem) (hz : ∀ z ∈ zs, z.Ok) (m : EntryMap)
    (ks : List Bytes) (r : Bytes) :
    readEntriesLoop zs.length m ks (s.withRest (zs.flatMap foreignCentral ++ r)) =
      (.ok (entryMapOf (zs.map foreignEntry) ++ m, ks ++ zs.map (·.name)), s.withRest r) := by
  induction zs generalizing m ks with
  | nil => simp [readEntriesLoop, entryMapOf]
  | cons e es ih =>
    rw [List.length_cons, readEntriesLoop, List.flatMap_cons, List.append_assoc,
      SM.bind_ok (readCentral_foreign h (hz e (by simp)) _), ih (fun e he => hz e (by simp [he]))]
    simp [entryMapOf, foreignEntry]

theorem zipEnd_model (n size off : Nat) : Spec.zipEnd n size off = endOfCentralDirectory ⟨n, size, off⟩ := by
  unfold Spec.zipEnd endOfCentralDirectory
  simp only [spec_le]
  rfl

theorem readEntriesLoop_prefix (h : s.good = true) (zs : List ForeignItem) (hz : ∀ z ∈ zs, z.Ok) (k : Nat) (m : EntryMap)
    (ks : List Bytes) (r : Bytes) :
    readEntriesLoop (zs.length + k) m ks (s.withRest (zs.flatMap foreignCentral ++ r)) =
      readEntriesLoop k (entryMapOf (zs.map foreignEntry) ++ m) (ks ++ zs.map (·.name)) (s.withRest r) := by
  induction zs generalizing m ks with
  | nil => simp [entryMapOf]
  | cons e es ih =>
    rw [List.length_cons, Nat.add_right_comm, readEntriesLoop, List.flatMap_cons, List.append_assoc,
      SM.bind_ok (readCentral_foreign h (hz e (by simp)) _), ih (fun e he => hz e (by simp [he]))]
    simp [entryMapOf, foreignEntry]

/-- Opening an archive comes down to reading its directory. -/
theorem open_directory {b front dir : Bytes} {n size : Nat} (hn : n < 2 ^ 16) (hs : size < 2 ^ 32) (hf : front.length < 2 ^ 32)
    (hb : b = front ++ dir ++ Spec.zipEnd n size front.length) (h : s.Ready b) :
    ∃ s2 : IStream, s2.Ready b ∧ s2.good = true ∧
      Reader.open s = match readEntriesLoop n [] [] (s2.withRest (dir ++ Spec.zipEnd n size front.length)) with
        | (.ok (m, ks), s') => .ok ⟨s', m, sortKeys ks⟩
        | (.error e, _) => .error e := by
  rw [zipEnd_model] at hb ⊢
  have hbl : b.length = (front ++ dir).length + 22 := by
    rw [hb, List.length_append, endOfCentralDirectory_length]
  obtain ⟨s1, e1, r1, g1, w1⟩ := seekg_ready h (front ++ dir).length (by omega)
  have e0 : IStream.seekgEnd (-(CD_END_SIZE : Int)) s = (.ok (), s1) := by
    rw [← e1]
    show IStream.seekg (s.all.length + -(CD_END_SIZE : Int)) s = _
    rw [h.all, hbl]
    congr 2
    simp [CD_END_SIZE]
  have d1 : b.drop (front ++ dir).length = endOfCentralDirectory ⟨n, size, front.length⟩ := by
    rw [hb, List.drop_left' rfl]
  obtain ⟨r, hr⟩ := readEndOfCentralDirectory_ok g1 n size front.length hn hs hf
  obtain ⟨s2, e2, r2, g2, w2⟩ := seekg_ready (ready_withRest r1 r) front.length (by rw [hbl]; simp; omega)
  have d2 : b.drop front.length = dir ++ endOfCentralDirectory ⟨n, size, front.length⟩ := by
    rw [hb, List.append_assoc, List.drop_left' rfl]
  refine ⟨s2, r2, g2, ?_⟩
  simp only [Reader.open, h.isOpen, Bool.not_true, Bool.false_eq_true, if_false]
  unfold readEntries
  rw [SM.bind_ok e0, w1, d1, SM.bind_ok hr]
  rw [toStreamoff_nat (by simp only; omega)]
  rw [SM.bind_ok e2]
  conv_lhs => rw [w2, d2]
  simp only
  rw [SM.bind_apply]
  split
  · rename_i heq
    split at heq
    · rename_i heq2
      rw [heq2]
      simp at heq
      obtain ⟨⟨rfl, rfl⟩, rfl⟩ := heq
      rfl
    · simp at heq
  · rename_i heq
    split at heq
    · simp at heq
    · rename_i heq2
      rw [heq2]
      simp at heq
      obtain ⟨rfl, rfl⟩ := heq
      rfl

theorem foreign_open {b : Bytes} {zs : List ForeignItem} (hb : Spec.ForeignDirectory b zs) (h : s.Ready b) :
    ∃ r, Reader.open s = .ok r ∧ RInv r b (entryMapOf (zs.map foreignEntry)) (sortKeys (zs.map (·.name))) := by
  obtain ⟨front, gap, size, hf, hs, hb'⟩ := hb.directory
  rw [List.append_assoc front] at hb'
  obtain ⟨s2, r2, g2, e⟩ := open_directory hb.count hs hf hb' h
  rw [List.append_assoc, readEntriesLoop_foreign g2 zs hb.ok] at e
  exact ⟨_, e, ready_withRest r2 _, by simp, by simp⟩

theorem lookup_foreign (zs : List ForeignItem) (n : Bytes) :
    (entryMapOf (zs.map foreignEntry)).lookup n = (Spec.lastNamed zs n).map foreignEntry := by
  rw [lookup_reverse_map, ← List.map_reverse, List.find?_map]
  rfl

/-! ### Optional parts of the format -/

theorem readCentralWith_eq (h : s.good = true) {z : ForeignItem} (hz : z.Ok) (extra comment : Bytes) (he : extra.length < 2 ^ 16) (r : Bytes) :
    readCentralHeader (s.withRest (Spec.foreignCentralWith z extra comment ++ r)) =
      (if extra.length > 0 then readZip64Extra (foreignEntry z) true else pure (foreignEntry z) : IM FileEntry)
        (s.withRest (extra ++ (comment ++ r))) := by
  unfold readCentralHeader Spec.foreignCentralWith
  simp only [List.append_assoc]
  have hd := hz.data
  have hs := hz.size
  have hv := hz.version
  rw [show ([0x50, 0x4B, 1, 2] : Bytes) = CD_HEADER_SIG from rfl, SM.bind_ok (assertSig_ok h CD_HEADER_SIG _ rfl)]
  rw [SM.bind_ok (read16_skip h _ _), SM.bind_ok (read16_le h (by omega) _), if_neg (by unfold ZIP64_VERSION; omega),
    SM.bind_ok (readShared_foreign h hz.method hz.crc (by omega) (by omega) hz.name _)]
  simp only []
  rw [SM.bind_ok (read16_le h he _), SM.bind_ok (read16_skip h _ _), SM.bind_ok (read16_skip h _ _), SM.bind_ok (read16_skip h _ _), SM.bind_ok (read32_skip h _ _),
    SM.bind_ok (read32_le h hz.offset _), SM.bind_ok (readName_ok h _ _)]
  rfl

/-- Another extra field than ZIP64. -/
theorem readCentral_extra (h : s.good = true) {z : ForeignItem} (hz : z.Ok) (tag : Nat) (ht : tag < 2 ^ 16) (ht1 : tag ≠ 1)
    (x comment : Bytes) (he : x.length + 2 < 2 ^ 16) (r : Bytes) :
    ∃ s', readCentralHeader (s.withRest (Spec.foreignCentralWith z (Spec.le 2 tag ++ x) comment ++ r)) =
      (.error (.throw (.runtimeError .badTag)), s') := by
  rw [readCentralWith_eq h hz _ _ (by simp [spec_le_length]; omega), if_pos (by simp [spec_le_length])]
  unfold readZip64Extra
  rw [List.append_assoc, SM.bind_ok (read16_le h ht _), if_pos (show tag ≠ ZIP64_TAG from ht1)]
  exact ⟨_, rfl⟩

theorem readCentral_comment (h : s.good = true) {z : ForeignItem} (hz : z.Ok) (comment r : Bytes) :
    readCentralHeader (s.withRest (Spec.foreignCentralWith z [] comment ++ r)) = (.ok (foreignEntry z), s.withRest (comment ++ r)) := by
  rw [readCentralWith_eq h hz _ _ (by simp), if_neg (by simp)]
  rfl

theorem readCentral_badSig (h : s.good = true) (x : Bytes) (hl : 4 ≤ x.length) (hx : x.take 4 ≠ [0x50, 0x4B, 1, 2]) :
    ∃ s', readCentralHeader (s.withRest x) = (.error (.throw (.runtimeError .badSignature)), s') := by
  have e : x = x.take 4 ++ x.drop 4 := (List.take_append_drop _ _).symm
  have h1 : assertSig CD_HEADER_SIG (s.withRest x) = (.error (.throw (.runtimeError .badSignature)), s.withRest (x.drop 4)) := by
    unfold assertSig
    have hl4 : (x.take 4).length = 4 := by rw [List.length_take]; omega
    have := IStream.read_append h (x.take 4) (x.drop 4) 4 hl4
    rw [← e] at this
    rw [SM.bind_ok this, if_neg (by omega), if_pos (show _ ≠ CD_HEADER_SIG from hx)]
    rfl
  unfold readCentralHeader
  exact ⟨_, SM.bind_error h1⟩

/-- A comment hides the signature that follows it, unless it begins with the signature itself. -/
theorem comment_hides (comment r : Bytes) (h0 : comment ≠ []) (h1 : ¬ [0x50, 0x4B, 1, 2] <+: comment) :
    (comment ++ ([0x50, 0x4B, 1, 2] ++ r)).take 4 ≠ ([0x50, 0x4B, 1, 2] : Bytes) := by
  match comment, h0, h1 with
  | [a], _, _ => simp
  | [a, b], _, _ => simp
  | [a, b, c], _, _ => simp
  | a :: b :: c :: d :: x, _, h1 =>
    intro h
    apply h1
    simp only [List.cons_append, List.take_succ_cons, List.take_zero] at h
    simp only [List.cons.injEq, and_true] at h
    obtain ⟨rfl, rfl, rfl, rfl⟩ := h
    exact ⟨x, rfl⟩

/-- A local header with sizes and CRC-32 zero. -/
theorem readLocal_streamed (h : s.good = true) {z : ForeignItem} (hz : z.Ok) (r : Bytes) :
    ∃ s', readLocalHeader (s.withRest (Spec.streamedLocal z ++ r)) = (.ok ⟨z.name, 0, 0, 0, z.method, 0⟩, s') := by
  have hv := hz.localVersion
  unfold readLocalHeader Spec.streamedLocal
  simp only [List.append_assoc]
  rw [show ([0x50, 0x4B, 3, 4] : Bytes) = LOCAL_HEADER_SIG from rfl, SM.bind_ok (assertSig_ok h LOCAL_HEADER_SIG _ rfl), SM.bind_ok (read16_le h (by omega) _),
    if_neg (by unfold ZIP64_VERSION; omega)]
  rw [SM.bind_ok (readShared_foreign h hz.method (by decide) (by decide) (by decide) hz.name _)]
  simp only []
  rw [SM.bind_ok (read16_le h (by decide) _), SM.bind_ok (readName_ok h _ _), if_neg (by decide)]
  exact ⟨_, rfl⟩

/-- Reading a streamed record fails. -/
theorem streamed_read {b : Bytes} {zs : List ForeignItem} (hb : Spec.ForeignDirectory b zs) (codec : Codec)
    {r : Reader} {ks : List Bytes} (hr : RInv r b (entryMapOf (zs.map foreignEntry)) ks) (name : Bytes) (z : ForeignItem)
    (hz : Spec.foreignLookup zs name = some z) (rest : Bytes) (hrest : b.drop z.offset = Spec.streamedLocal z ++ rest)
    (hne : z.crc ≠ 0 ∨ z.size ≠ 0 ∨ z.data ≠ []) :
    (Reader.readFile codec name r).1 = .error (.throw (.runtimeError .headersDisagree)) := by
  obtain ⟨n, h2, hres⟩ : ∃ n, Spec.lastNamed zs n = some z ∧ resolveName (entryMapOf (zs.map foreignEntry)) name = .ok n := by
    unfold Spec.foreignLookup at hz
    match hA : Spec.lastNamed zs name with
    | some z' =>
      rw [hA] at hz
      obtain rfl := Option.some.inj hz
      refine ⟨name, hA, ?_⟩
      unfold resolveName
      rw [lookup_foreign, hA]
      rfl
    | none =>
      rw [hA] at hz
      simp only [] at hz
      refine ⟨_, hz, ?_⟩
      unfold resolveName
      rw [lookup_foreign, lookup_foreign, hA, hz]
      rfl
  have hl : (entryMapOf (zs.map foreignEntry)).lookup n = some (foreignEntry z) := by rw [lookup_foreign, h2]; rfl
  have hm : z ∈ zs := List.mem_reverse.1 (List.mem_of_find?_eq_some h2)
  have hok := hb.ok z hm
  have hzo := hok.offset
  have hoff : z.offset ≤ b.length := by
    by_contra hc
    rw [List.drop_of_length_le (by omega)] at hrest
    simp [Spec.streamedLocal] at hrest
  obtain ⟨s1, e1, r1, g1, w1⟩ := seekg_ready hr.ready z.offset hoff
  obtain ⟨s2, e2⟩ := readLocal_streamed g1 hok rest
  have hcheck : (foreignEntry z).check ⟨z.name, 0, 0, 0, z.method, 0⟩ = false := by
    simp only [FileEntry.check, foreignEntry, Bool.not_eq_false', Bool.or_eq_true, bne_iff_ne, ne_eq, not_true, false_or]
    rcases hne with h | h | h
    · exact .inl (.inl (.inl (Ne.symm h)))
    · exact .inr (Ne.symm h)
    · exact .inl (.inr (fun h' => h (List.length_eq_zero_iff.1 h'.symm)))
  have hrf : Npy.readFile codec (entryMapOf (zs.map foreignEntry)) name r.input =
      (.error (.throw (.runtimeError .headersDisagree)), s2) := by
    unfold Npy.readFile
    have hl1 : (SM.lift (resolveName (entryMapOf (zs.map foreignEntry)) name) : IM Bytes) r.input = (.ok n, r.input) := by rw [hres]; rfl
    rw [SM.bind_ok hl1, hl]
    simp only []
    have ho : toStreamoff (foreignEntry z).offset = (z.offset : Int) := toStreamoff_nat (by simp only [foreignEntry]; omega)
    rw [ho, SM.bind_ok e1, w1, hrest, SM.bind_ok e2, if_pos hcheck]
    rfl
  rw [readerReadFile_eq, hr.entries, hrf]

theorem foreign_read {b : Bytes} {zs : List ForeignItem} (hb : ForeignArchive b zs) (codec : Codec)
    {r : Reader} {ks : List Bytes} (hr : RInv r b (entryMapOf (zs.map foreignEntry)) ks) (name : Bytes) :
    ∃ r', RInv r' b (entryMapOf (zs.map foreignEntry)) ks ∧
      Reader.readFile codec name r =
        (match Spec.foreignLookup zs name with
         | some z => finish codec z.method z.crc z.data
         | none => .error (.throw (.invalidArgument .filename)), r') := by
  have hhit : ∀ n z, Spec.lastNamed zs n = some z → resolveName (entryMapOf (zs.map foreignEntry)) name = .ok n →
      ∃ r', RInv r' b (entryMapOf (zs.map foreignEntry)) ks ∧
        Reader.readFile codec name r = (finish codec z.method z.crc z.data, r') := by
    intro n z h2 hres
    have hl : (entryMapOf (zs.map foreignEntry)).lookup n = some (foreignEntry z) := by rw [lookup_foreign, h2]; rfl
    have hm : z ∈ zs := List.mem_reverse.1 (List.mem_of_find?_eq_some h2)
    have hz := hb.ok z hm
    obtain ⟨rest, hrest⟩ := hb.records z hm
    have hzo := hz.offset
    have hzd := hz.data
    have hoff : z.offset ≤ b.length := by
      by_contra hc
      rw [List.drop_of_length_le (by omega)] at hrest
      simp [foreignLocal] at hrest
    obtain ⟨s1, e1, r1, g1, w1⟩ := seekg_ready hr.ready z.offset hoff
    have hcheck : (foreignEntry z).check { foreignEntry z with offset := 0 } = true := by simp [FileEntry.check]
    have hpay : readPayload z.data.length (s1.withRest (z.data ++ rest)) = (.ok z.data, s1.withRest rest) := by
      unfold readPayload
      rw [if_neg (by unfold STRING_MAX; omega), SM.bind_ok (IStream.read_append g1 z.data rest _ rfl)]
      simp
    have hsuf : foreignLocal z ++ rest <:+ s1.all := by rw [r1.all, ← hrest]; exact List.drop_suffix _ _
    have hrf : Npy.readFile codec (entryMapOf (zs.map foreignEntry)) name r.input =
        (finish codec z.method z.crc z.data, s1.withRest rest) := by
      unfold Npy.readFile
      have hl1 : (SM.lift (resolveName (entryMapOf (zs.map foreignEntry)) name) : IM Bytes) r.input = (.ok n, r.input) := by rw [hres]; rfl
      rw [SM.bind_ok hl1, hl]
      simp only []
      have ho : toStreamoff (foreignEntry z).offset = (z.offset : Int) := toStreamoff_nat (by simp only [foreignEntry]; omega)
      rw [ho, SM.bind_ok e1, w1, hrest, SM.bind_ok (readLocal_foreign g1 r1.isOpen hz _ hsuf), if_neg (by rw [hcheck]; simp)]
      change (readPayload z.data.length >>= _) _ = _
      rw [SM.bind_ok hpay]
      unfold finish decompressWith
      simp only [foreignEntry]
      match (if z.method = DEFLATED then codec.inflate z.data else .ok z.data) with
      | .error e => rfl
      | .ok bytes =>
        simp only [SM.bind_apply, SM.lift_apply]
        by_cases hc : npyCrc32 bytes = z.crc
        · simp [hc]
        · simp [hc]
    refine ⟨{ r with input := s1.withRest rest }, ⟨ready_withRest r1 _, hr.entries, hr.keys⟩, ?_⟩
    rw [readerReadFile_eq, hr.entries, hrf]
  unfold Spec.foreignLookup
  match hA : Spec.lastNamed zs name with
  | some z =>
    apply hhit name z hA
    unfold resolveName
    rw [lookup_foreign, hA]
    rfl
  | none =>
    match hB : Spec.lastNamed zs (name ++ b!".npy") with
    | some z =>
      apply hhit _ z hB
      unfold resolveName
      rw [lookup_foreign, lookup_foreign, hA, hB]
      rfl
    | none =>
      refine ⟨r, hr, ?_⟩
      have : (SM.lift (resolveName (entryMapOf (zs.map foreignEntry)) name) : IM Bytes) r.input =
          (.error (.throw (.invalidArgument .filename)), r.input) := by
        simp only [SM.lift_apply, resolveName]
        rw [lookup_foreign, lookup_foreign, hA, hB]
        rfl
      have hrf : Npy.readFile codec (entryMapOf (zs.map foreignEntry)) name r.input =
          (.error (.throw (.invalidArgument .filename)), r.input) := by
        unfold Npy.readFile
        rw [SM.bind_error this]
      rw [readerReadFile_eq, hr.entries, hrf]
      rw [← hr.entries]

/-- A state of the reader that every file access keeps is kept by every call. -/
theorem after_keeps_inv {cfg : Cfg} {codec : Codec} {P : Reader → Prop}
    (hP : ∀ r name, P r → P (Reader.readFile codec name r).2) {r : Reader} (hr : P r) (calls : List RdCall) :
    P (r.after cfg codec calls) := by
  induction calls generalizing r with
  | nil => exact hr
  | cons c calls ih =>
    apply ih
    cases c with
    | read α ops name =>
      have h1 := hP r name hr
      have : (Reader.read cfg codec ops name r).2 = (Reader.readFile codec name r).2 := by
        unfold Reader.read
        rw [SM.bind_apply]
        match Reader.readFile codec name r with
        | (.ok b, r') => rfl
        | (.error e, r') => rfl
      simp only [RdCall.run, this]
      exact h1
    | peek name =>
      have h1 := hP r name hr
      have : (Reader.peek cfg codec name r).2 = (Reader.readFile codec name r).2 := by
        unfold Reader.peek
        rw [SM.bind_apply]
        match Reader.readFile codec name r with
        | (.ok b, r') => rfl
        | (.error e, r') => rfl
      simp only [RdCall.run, this]
      exact h1
    | contains name => exact hr
    | keys => exact hr

end Npy
