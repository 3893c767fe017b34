import Verif.Proofs.Foreign
import Verif.Props.Crc
import Verif.Props.Inflate
import Verif.Props.Deflate
/-!
# Archives made by other programs (C67)
-/

namespace Npy
open Spec (ForeignItem foreignLocal foreignCentral ForeignArchive NumpyItem numpyMember numpyMembers numpyArchive crc32)
open Spec.Deflate (Inflates)

/-- What reading the file `z` of an archive gives: its data are unpacked if the method is 8 (with any other method they are
taken as they are), their CRC-32 is compared with the recorded one, and the NPY file they hold is loaded. -/
structure ReadsFile (cfg : Cfg) (codec : Codec) (z : ForeignItem) (name : Bytes) (r : Reader) : Prop where
  /-- an exception of the decompressor goes to the caller -/
  fails : ∀ err, z.method = 8 → codec.inflate z.data = .error err →
    (∀ (α : Type) (ops : ElemOps α), (Reader.read cfg codec ops name r).1 = .error err) ∧
      (Reader.peek cfg codec name r).1 = .error err
  /-- unpacked data with another CRC-32 are refused -/
  differs : ∀ g, (if z.method = 8 then codec.inflate z.data else .ok z.data) = .ok g → g.length < 2 ^ 32 → crc32 g ≠ z.crc →
    (∀ (α : Type) (ops : ElemOps α), (Reader.read cfg codec ops name r).1 = .error (.throw (.runtimeError .crcMismatch))) ∧
      (Reader.peek cfg codec name r).1 = .error (.throw (.runtimeError .crcMismatch))
  /-- the file is loaded -/
  agrees : ∀ g, (if z.method = 8 then codec.inflate z.data else .ok z.data) = .ok g → g.length < 2 ^ 32 → crc32 g = z.crc →
    (∀ (α : Type) (ops : ElemOps α), (Reader.read cfg codec ops name r).1 = loadFromString cfg ops g) ∧
      (Reader.peek cfg codec name r).1 = peekString cfg g

theorem readsFile {cfg : Cfg} {codec : Codec} {z : ForeignItem} {name : Bytes} {r : Reader}
    (h : (Reader.readFile codec name r).1 = finish codec z.method z.crc z.data) : ReadsFile cfg codec z name r := by
  have hd : decompressWith codec z.method z.data = (if z.method = 8 then codec.inflate z.data else .ok z.data) := rfl
  have key : ∀ x, (Reader.readFile codec name r).1 = .error x →
      (∀ (α : Type) (ops : ElemOps α), (Reader.read cfg codec ops name r).1 = .error x) ∧
      (Reader.peek cfg codec name r).1 = .error x :=
    fun x hx => ⟨fun α ops => by rw [reader_read_eq, hx]; rfl, by rw [reader_peek_eq, hx]; rfl⟩
  unfold finish at h
  rw [hd] at h
  refine ⟨fun err h1 h2 => key _ ?_, fun g h1 h2 h3 => key _ ?_, fun g h1 h2 h3 => ?_⟩
  · rw [h, if_pos h1, h2]
  · rw [h, h1]; simp only []; rw [if_pos (by rw [C41_crc32 _ h2]; exact h3)]
  · rw [h1] at h; simp only [] at h
    rw [if_neg (by rw [C41_crc32 _ h2]; exact fun h => h h3)] at h
    exact ⟨fun α ops => by rw [reader_read_eq, h]; rfl, by rw [reader_peek_eq, h]; rfl⟩

/-- **C67**. Every ZIP archive without ZIP64 directory, extra fields other than ZIP64 sizes in local headers, comments and data
descriptors (`ForeignArchive`), whatever program made it: the reader opens it from a string or a file; `keys()` lists the
names in ascending order; and after any calls `contains(name)` tells whether a file has that name, while `read` and `peek` give
what `ReadsFile` says of the last file with that name, or else with ".npy" appended to it, and throw
`invalid_argument` if there is none. -/
theorem C67_foreign (cfg : Cfg) (codec : Codec) (b : Bytes) (zs : List ForeignItem) (hb : ForeignArchive b zs)
    (s : IStream) (hs : s = IStream.ofBytes b ∨ s = IStream.ofFile b) :
    ∃ r, Reader.open s = .ok r ∧ ∀ calls : List RdCall,
      (r.after cfg codec calls).keys.Perm (zs.map (·.name)) ∧ (r.after cfg codec calls).keys.Pairwise (· ≤ ·) ∧
      ∀ name, ((r.after cfg codec calls).contains name = true ↔ ∃ z ∈ zs, z.name = name) ∧
        (∀ z, Spec.foreignLookup zs name = some z → ReadsFile cfg codec z name (r.after cfg codec calls)) ∧
        (Spec.foreignLookup zs name = none →
          (∀ (α : Type) (ops : ElemOps α), (Reader.read cfg codec ops name (r.after cfg codec calls)).1 =
            .error (.throw (.invalidArgument .filename))) ∧
          (Reader.peek cfg codec name (r.after cfg codec calls)).1 = .error (.throw (.invalidArgument .filename))) := by
  have hs' : s.Ready b := by rcases hs with rfl | rfl; exacts [ready_ofBytes _, ready_ofFile _]
  obtain ⟨r, o1, o2⟩ := foreign_open hb.toForeignDirectory hs'
  refine ⟨r, o1, fun calls => ?_⟩
  have hi := after_keeps_inv (cfg := cfg) (codec := codec)
    (P := fun r => RInv r b (entryMapOf (zs.map foreignEntry)) (sortKeys (zs.map (·.name))))
    (fun r name hr => by obtain ⟨r', h1, h2⟩ := foreign_read hb codec hr name; rw [h2]; exact h1) o2 calls
  refine ⟨by rw [hi.keys]; exact sortKeys_perm _, by rw [hi.keys]; exact sortKeys_sorted _, fun name => ?_⟩
  obtain ⟨r', -, e⟩ := foreign_read hb codec hi name
  refine ⟨?_, fun z hz => readsFile (by rw [e, hz]), fun hn => ?_⟩
  · unfold Reader.contains
    rw [hi.entries, lookup_foreign, Option.isSome_map]
    unfold Spec.lastNamed
    rw [List.find?_isSome]
    simp
  · rw [hn] at e
    exact ⟨fun α ops => by rw [reader_read_eq, e]; rfl, by rw [reader_peek_eq, e]; rfl⟩

/-! ### numpy.savez -/

theorem numpyMembers_rel (c m : Bool) (off : Nat) (as : List NumpyItem) :
    List.Forall₂ (fun a z => ∃ o, z = numpyMember c m o a) as (numpyMembers c m off as) := by
  induction as generalizing off with
  | nil => exact .nil
  | cons a as ih => exact .cons ⟨off, rfl⟩ (ih _)

theorem numpyMembers_records (c m : Bool) (as : List NumpyItem) (front tail : Bytes) (off : Nat) (hoff : off = front.length) :
    ∀ z ∈ numpyMembers c m off as,
      z.offset ≤ (front ++ (numpyMembers c m off as).flatMap foreignLocal).length ∧
      ∃ rest, (front ++ (numpyMembers c m off as).flatMap foreignLocal ++ tail).drop z.offset = foreignLocal z ++ rest := by
  induction as generalizing front off with
  | nil => intro z hz; simp [numpyMembers] at hz
  | cons a as ih =>
    intro z hz
    rw [numpyMembers] at hz ⊢
    rcases List.mem_cons.1 hz with rfl | hz
    · refine ⟨by simp [numpyMember, hoff], (numpyMembers c m (off + (foreignLocal (numpyMember c m off a)).length) as).flatMap
        foreignLocal ++ tail, ?_⟩
      change List.drop off _ = _
      rw [List.flatMap_cons, List.append_assoc, List.append_assoc, List.drop_left' hoff.symm]
    · have := ih (front ++ foreignLocal (numpyMember c m off a)) _ (by rw [List.length_append, hoff]) z hz
      rw [List.flatMap_cons, ← List.append_assoc]
      exact this

/-- An archive as `numpy.savez` writes it is one of those read. -/
theorem numpyArchive_foreign (c m : Bool) (as : List NumpyItem) (hcount : as.length < 65536)
    (hkey : ∀ a ∈ as, a.key.length + 4 < 65536) (hfile : ∀ a ∈ as, a.file.length < 0xFFFFFFFF)
    (hpacked : ∀ a ∈ as, c = true → a.packed.length < 0xFFFFFFFF) (hlen : (numpyArchive c m as).length < 2 ^ 32) :
    ForeignArchive (numpyArchive c m as) (numpyMembers c m 0 as) := by
  have hrel := numpyMembers_rel c m 0 as
  have hrec := numpyMembers_records c m as [] ((numpyMembers c m 0 as).flatMap foreignCentral ++
    Spec.zipEnd (numpyMembers c m 0 as).length ((numpyMembers c m 0 as).flatMap foreignCentral).length
      ((numpyMembers c m 0 as).flatMap foreignLocal).length) 0 rfl
  simp only [List.length_nil, List.nil_append] at hrec
  have hlen' := hlen
  unfold numpyArchive at hlen'
  simp only [List.length_append] at hlen'
  refine ⟨⟨fun z hz => ?_, ?_, ⟨(numpyMembers c m 0 as).flatMap foreignLocal, [],
    ((numpyMembers c m 0 as).flatMap foreignCentral).length, by omega, by omega, by rw [List.append_nil]; rfl⟩⟩, fun z hz => ?_⟩
  · obtain ⟨a, ha, o, rfl⟩ := forall₂_mem_right hrel hz
    have h1 := (hrec _ hz).1
    refine ⟨?_, ?_, ?_, hfile a ha, ?_, by omega, ?_, ?_⟩
    · have := hkey a ha
      simp only [numpyMember, List.length_append]
      simpa using this
    · simp only [numpyMember]; split <;> omega
    · exact BitVec.isLt _
    · simp only [numpyMember]
      split
      · rename_i h; exact hpacked a ha h
      · exact hfile a ha
    · simp only [numpyMember]; split <;> omega
    · simp only [numpyMember]; split <;> omega
  · rw [← hrel.length_eq]; exact hcount
  · obtain ⟨rest, hr⟩ := (hrec z hz).2
    refine ⟨rest, ?_⟩
    rw [← hr]
    unfold numpyArchive
    simp only [List.append_assoc]

theorem numpy_lastNamed (c m : Bool) (as : List NumpyItem) (hkeys : (as.map (·.key)).Nodup) (a : NumpyItem) (ha : a ∈ as) :
    ∃ o, Spec.lastNamed (numpyMembers c m 0 as) (a.key ++ b!".npy") = some (numpyMember c m o a) := by
  have := find?_forall₂ (p := fun x : NumpyItem => decide (x.key ++ b!".npy" = a.key ++ b!".npy"))
    (q := fun z : ForeignItem => decide (z.name = a.key ++ b!".npy"))
    (by rintro x z ⟨o, rfl⟩; rfl) (List.forall₂_reverse_iff.2 (numpyMembers_rel c m 0 as))
  rcases this with ⟨h, -⟩ | ⟨x, z, h1, h2, o, rfl⟩
  · exact absurd (List.find?_eq_none.1 h a (List.mem_reverse.2 ha)) (by simp)
  · have hx := List.find?_some h1
    simp only [decide_eq_true_eq, List.append_cancel_right_eq] at hx
    have : x = a := List.inj_on_of_nodup_map hkeys (List.mem_reverse.1 (List.mem_of_find?_eq_some h1)) ha hx
    subst this
    exact ⟨o, h2⟩

theorem numpy_lookup (c m : Bool) (as : List NumpyItem) (hkeys : (as.map (·.key)).Nodup) (a : NumpyItem) (ha : a ∈ as)
    (name : Bytes) (hname : name = a.key ++ b!".npy" ∨ name = a.key ∧ ∀ x ∈ as, x.key ++ b!".npy" ≠ a.key) :
    ∃ o, Spec.foreignLookup (numpyMembers c m 0 as) name = some (numpyMember c m o a) := by
  obtain ⟨o, ho⟩ := numpy_lastNamed c m as hkeys a ha
  refine ⟨o, ?_⟩
  unfold Spec.foreignLookup
  rcases hname with rfl | ⟨rfl, hno⟩
  · rw [ho]
  · have : Spec.lastNamed (numpyMembers c m 0 as) a.key = none := by
      unfold Spec.lastNamed
      rw [List.find?_eq_none]
      intro z hz
      obtain ⟨x, hx, o', rfl⟩ := forall₂_mem_right (numpyMembers_rel c m 0 as) (List.mem_reverse.1 hz)
      exact fun h => hno x hx (of_decide_eq_true h)
    rw [this]
    exact ho

/-- **C67**, `numpy.savez`. An archive of arrays with distinct keys (a Python dictionary), each written as `file`: the reader opens
it, and after any calls reading an array by its key, or by its key followed by ".npy", does what `load` does on its file; the same
for `peek`. (By the key alone only if no other array's key is the same without ".npy" at the end: the reader looks for that
first.) Names not in the archive throw `invalid_argument`. -/
theorem C67_numpy (cfg : Cfg) (codec : Codec) (modern : Bool) (as : List NumpyItem) (hkeys : (as.map (·.key)).Nodup)
    (hcount : as.length < 65536) (hkey : ∀ a ∈ as, a.key.length + 4 < 65536) (hfile : ∀ a ∈ as, a.file.length < 0xFFFFFFFF)
    (hlen : (numpyArchive false modern as).length < 2 ^ 32)
    (s : IStream) (hs : s = IStream.ofBytes (numpyArchive false modern as) ∨ s = IStream.ofFile (numpyArchive false modern as)) :
    ∃ r, Reader.open s = .ok r ∧ r.keys.Perm (as.map fun a => a.key ++ b!".npy") ∧ ∀ (calls : List RdCall) (name : Bytes),
      (∀ a ∈ as, (name = a.key ++ b!".npy" ∨ name = a.key ∧ ∀ x ∈ as, x.key ++ b!".npy" ≠ a.key) →
        (∀ (α : Type) (ops : ElemOps α), (Reader.read cfg codec ops name (r.after cfg codec calls)).1 =
          loadFromString cfg ops a.file) ∧
        (Reader.peek cfg codec name (r.after cfg codec calls)).1 = peekString cfg a.file) ∧
      ((∀ a ∈ as, a.key ≠ name ∧ a.key ++ b!".npy" ≠ name) →
        ∀ (α : Type) (ops : ElemOps α), (Reader.read cfg codec ops name (r.after cfg codec calls)).1 =
          .error (.throw (.invalidArgument .filename))) := by
  have hf := numpyArchive_foreign false modern as hcount hkey hfile (by simp) hlen
  obtain ⟨r, o1, o2⟩ := C67_foreign cfg codec _ _ hf s hs
  have hrel := numpyMembers_rel false modern 0 as
  have hnm : (numpyMembers false modern 0 as).map (·.name) = as.map fun a => a.key ++ b!".npy" :=
    (forall₂_map_eq (by rintro a z ⟨o, rfl⟩; rfl) hrel).symm
  refine ⟨r, o1, by rw [← hnm]; exact (o2 []).1, fun calls name => ⟨fun a ha hname => ?_, fun hno => ?_⟩⟩
  · obtain ⟨o, ho⟩ := numpy_lookup false modern as hkeys a ha name hname
    have := hfile a ha
    exact (((o2 calls).2.2 name).2.1 _ ho).agrees a.file rfl (by omega) rfl
  · refine (((o2 calls).2.2 name).2.2 ?_).1
    have key : ∀ n, (n = name ∨ n = name ++ b!".npy") → Spec.lastNamed (numpyMembers false modern 0 as) n = none := by
      intro n hn
      unfold Spec.lastNamed
      rw [List.find?_eq_none]
      intro z hz
      obtain ⟨x, hx, o', rfl⟩ := forall₂_mem_right hrel (List.mem_reverse.1 hz)
      obtain ⟨n1, n2⟩ := hno x hx
      rcases hn with rfl | rfl
      · simpa [numpyMember] using n2
      · simpa [numpyMember] using n1
    unfold Spec.foreignLookup
    rw [key _ (.inl rfl), key _ (.inr rfl)]

/-- **C67**, `numpy.savez_compressed`. As before with the bundled decompressor, when `packed` is a DEFLATE stream of `file`: arrays
with files of the sizes `SafeSize` are loaded; others, if the file or the stream is at most 1 MiB, are loaded or
`runtime_error` is thrown. -/
theorem C67_numpy_compressed (cfg : Cfg) (j : Junk) (n : Nat) (hn : 2 ^ 36 ≤ n) (hbig : cfg.nativeBig = false) (modern : Bool) (as : List NumpyItem)
    (hkeys : (as.map (·.key)).Nodup) (hcount : as.length < 65536) (hkey : ∀ a ∈ as, a.key.length + 4 < 65536)
    (hfile : ∀ a ∈ as, a.file.length < 0xFFFFFFFF) (hpacked : ∀ a ∈ as, Inflates a.packed a.file)
    (hlen : (numpyArchive true modern as).length < 2 ^ 32) (hz : ∀ a ∈ as, a.packed.length < 0xFFFFFFFF)
    (s : IStream) (hs : s = IStream.ofBytes (numpyArchive true modern as) ∨ s = IStream.ofFile (numpyArchive true modern as)) :
    ∃ r, Reader.open s = .ok r ∧ ∀ (calls : List RdCall) (name : Bytes),
      ∀ a ∈ as, (name = a.key ++ b!".npy" ∨ name = a.key ∧ ∀ x ∈ as, x.key ++ b!".npy" ≠ a.key) →
        ∀ (α : Type) (ops : ElemOps α),
        (Spec.Deflate.SafeSize a.file.length →
          (Reader.read cfg (miniz cfg j n) ops name (r.after cfg (miniz cfg j n) calls)).1 = loadFromString cfg ops a.file) ∧
        (a.packed.length ≤ 1048576 ∨ a.file.length ≤ 1048576 →
          (Reader.read cfg (miniz cfg j n) ops name (r.after cfg (miniz cfg j n) calls)).1 = loadFromString cfg ops a.file ∨
          (Reader.read cfg (miniz cfg j n) ops name (r.after cfg (miniz cfg j n) calls)).1 =
            .error (.throw (.runtimeError .inflateError))) := by
  obtain ⟨big, nd, w16⟩ := cfg
  obtain rfl : big = false := hbig
  have hf := numpyArchive_foreign true modern as hcount hkey hfile (fun a ha _ => hz a ha) hlen
  obtain ⟨r, o1, o2⟩ := C67_foreign ⟨false, nd, w16⟩ (miniz ⟨false, nd, w16⟩ j n) _ _ hf s hs
  refine ⟨r, o1, fun calls name a ha hname α ops => ?_⟩
  obtain ⟨o, ho⟩ := numpy_lookup true modern as hkeys a ha name hname
  have hR := ((o2 calls).2.2 name).2.1 _ ho
  have h1 := hfile a ha
  have h2 := hz a ha
  have hfuel : 8 * a.packed.length + a.file.length + 2 ≤ n := by omega
  have hgood : ∀ h : npyInflate false n a.packed = .ok a.file,
      (Reader.read ⟨false, nd, w16⟩ (miniz ⟨false, nd, w16⟩ j n) ops name (r.after ⟨false, nd, w16⟩ (miniz ⟨false, nd, w16⟩ j n) calls)).1 = loadFromString ⟨false, nd, w16⟩ ops a.file :=
    fun h => (hR.agrees a.file (by simpa [numpyMember, miniz] using h) (by omega) rfl).1 α ops
  refine ⟨fun hl => hgood (C55_safe _ _ (hpacked a ha) hl n hfuel), fun hl => ?_⟩
  rcases C55_never_wrong _ _ (hpacked a ha) hl n hfuel with h | h
  · exact .inl (hgood h)
  · exact .inr ((hR.fails _ rfl (by simpa [numpyMember, miniz] using h)).1 α ops)

/-! ### What other programs put into archives, and the reader does not read -/

/-- **C67**, extra fields. Opening an archive throws `runtime_error` if one of its files has an extra field in the directory that
does not begin with a ZIP64 block (such as the time stamps and user ids of Info-ZIP's `zip`); whatever the other files
are. -/
theorem C67_extra_field (b front more : Bytes) (zs : List ForeignItem) (z : ForeignItem) (tag : Nat) (x comment : Bytes) (k size : Nat)
    (hb : b = front ++ zs.flatMap foreignCentral ++ Spec.foreignCentralWith z (Spec.le 2 tag ++ x) comment ++ more ++
      Spec.zipEnd (zs.length + 1 + k) size front.length)
    (hf : front.length < 2 ^ 32) (hs : size < 2 ^ 32) (hn : zs.length + 1 + k < 2 ^ 16) (hzs : ∀ z ∈ zs, z.Ok) (hz : z.Ok)
    (htag : tag < 2 ^ 16) (hx : x.length + 2 < 2 ^ 16) (hne : tag ≠ 1)
    (s : IStream) (hs' : s = IStream.ofBytes b ∨ s = IStream.ofFile b) :
    Reader.open s = .error (.throw (.runtimeError .badTag)) := by
  have hr : s.Ready b := by rcases hs' with rfl | rfl; exacts [ready_ofBytes _, ready_ofFile _]
  rw [List.append_assoc front, List.append_assoc front] at hb
  obtain ⟨s2, r2, g2, e⟩ := open_directory hn hs hf hb hr
  rw [e, List.append_assoc, List.append_assoc, Nat.add_assoc, readEntriesLoop_prefix g2 zs hzs, Nat.add_comm 1 k,
    readEntriesLoop]
  obtain ⟨s3, h3⟩ := readCentral_extra (s := s2) g2 hz tag htag hne x comment hx (more ++ Spec.zipEnd (zs.length + (k + 1)) size front.length)
  rw [SM.bind_error h3]

/-- **C67**, comments. Opening an archive throws `runtime_error` if one of its files, other than the last, has a comment (that does
not itself begin with the signature of a directory header). -/
theorem C67_comment (b front more : Bytes) (zs : List ForeignItem) (z next : ForeignItem) (comment : Bytes) (k size : Nat)
    (hb : b = front ++ zs.flatMap foreignCentral ++ Spec.foreignCentralWith z [] comment ++ (foreignCentral next ++ more) ++
      Spec.zipEnd (zs.length + 2 + k) size front.length)
    (hf : front.length < 2 ^ 32) (hs : size < 2 ^ 32) (hn : zs.length + 2 + k < 2 ^ 16) (hzs : ∀ z ∈ zs, z.Ok) (hz : z.Ok)
    (hc : comment ≠ []) (hsig : ¬ [0x50, 0x4B, 1, 2] <+: comment)
    (s : IStream) (hs' : s = IStream.ofBytes b ∨ s = IStream.ofFile b) :
    Reader.open s = .error (.throw (.runtimeError .badSignature)) := by
  have hr : s.Ready b := by rcases hs' with rfl | rfl; exacts [ready_ofBytes _, ready_ofFile _]
  rw [List.append_assoc front, List.append_assoc front] at hb
  obtain ⟨s2, r2, g2, e⟩ := open_directory hn hs hf hb hr
  rw [e, List.append_assoc, List.append_assoc, Nat.add_assoc, readEntriesLoop_prefix g2 zs hzs,
    show 2 + k = (k + 1) + 1 by omega, readEntriesLoop, SM.bind_ok (readCentral_comment g2 hz _ _), readEntriesLoop]
  obtain ⟨t, ht⟩ : ∃ t, foreignCentral next = [0x50, 0x4B, 1, 2] ++ t := by
    unfold foreignCentral
    simp only [List.append_assoc]
    exact ⟨_, rfl⟩
  rw [ht]
  simp only [List.append_assoc]
  obtain ⟨s3, h3⟩ := readCentral_badSig (s := s2) g2 (comment ++ ([0x50, 0x4B, 1, 2] ++ (t ++ (more ++
    Spec.zipEnd (zs.length + (k + 1 + 1)) size front.length)))) (by simp; omega) (comment_hides _ _ hc hsig)
  rw [SM.bind_error h3]

/-- **C67**, data descriptors. A file written by a program that could not rewind its output (sizes and CRC-32 are zero in the local
header, and stand behind the data) is listed, but reading it throws `runtime_error`. -/
theorem C67_streamed (cfg : Cfg) (codec : Codec) (b : Bytes) (zs : List ForeignItem) (hb : Spec.ForeignDirectory b zs)
    (name : Bytes) (z : ForeignItem) (hz : Spec.foreignLookup zs name = some z) (rest : Bytes)
    (hrest : b.drop z.offset = Spec.streamedLocal z ++ rest) (hne : z.crc ≠ 0 ∨ z.size ≠ 0 ∨ z.data ≠ [])
    (s : IStream) (hs : s = IStream.ofBytes b ∨ s = IStream.ofFile b) :
    ∃ r, Reader.open s = .ok r ∧ r.keys.Perm (zs.map (·.name)) ∧
      (∀ (α : Type) (ops : ElemOps α), (Reader.read cfg codec ops name r).1 = .error (.throw (.runtimeError .headersDisagree))) ∧
      (Reader.peek cfg codec name r).1 = .error (.throw (.runtimeError .headersDisagree)) := by
  have hs' : s.Ready b := by rcases hs with rfl | rfl; exacts [ready_ofBytes _, ready_ofFile _]
  obtain ⟨r, o1, o2⟩ := foreign_open hb hs'
  have := streamed_read hb codec o2 name z hz rest hrest hne
  exact ⟨r, o1, by rw [o2.keys]; exact sortKeys_perm _, fun α ops => by rw [reader_read_eq, this]; rfl,
    by rw [reader_peek_eq, this]; rfl⟩

/-! ### Examples -/

/-- What Python 3.11.10 writes (`zipfile`, called as `numpy.savez_compressed` calls it) for two files. -/
def exPython : Bytes :=
  [80, 75, 3, 4, 45, 0, 0, 0, 8, 0, 0, 0, 33, 0, 26, 28, 180, 141, 255, 255, 255, 255, 255, 255, 255, 255, 5, 0, 20, 0, 97, 46, 110,
   112, 121, 1, 0, 16, 0, 50, 0, 0, 0, 0, 0, 0, 0, 10, 0, 0, 0, 0, 0, 0, 0, 203, 72, 205, 201, 201, 207, 32, 133, 0, 0, 80, 75, 3, 4,
   45, 0, 0, 0, 8, 0, 0, 0, 33, 0, 131, 22, 220, 140, 255, 255, 255, 255, 255, 255, 255, 255, 5, 0, 20, 0, 98, 46, 110, 112, 121, 1, 0,
   16, 0, 1, 0, 0, 0, 0, 0, 0, 0, 3, 0, 0, 0, 0, 0, 0, 0, 171, 0, 0, 80, 75, 1, 2, 45, 3, 45, 0, 0, 0, 8, 0, 0, 0, 33, 0, 26, 28, 180,
   141, 10, 0, 0, 0, 50, 0, 0, 0, 5, 0, 0, 0, 0, 0, 0, 0, 0, 0, 0, 0, 128, 1, 0, 0, 0, 0, 97, 46, 110, 112, 121, 80, 75, 1, 2, 45, 3,
   45, 0, 0, 0, 8, 0, 0, 0, 33, 0, 131, 22, 220, 140, 3, 0, 0, 0, 1, 0, 0, 0, 5, 0, 0, 0, 0, 0, 0, 0, 0, 0, 0, 0, 128, 1, 65, 0, 0, 0,
   98, 46, 110, 112, 121, 80, 75, 5, 6, 0, 0, 0, 0, 2, 0, 2, 0, 102, 0, 0, 0, 123, 0, 0, 0, 0, 0]

def exHello : NumpyItem := ⟨b!"a", b!"hellohellohellohellohellohellohellohellohellohello", [203, 72, 205, 201, 201, 207, 32, 133, 0, 0]⟩
def exX : NumpyItem := ⟨b!"b", b!"x", [171, 0, 0]⟩

/-- The specification describes the bytes Python writes. -/
example : numpyArchive true true [exHello, exX] = exPython := by decide +kernel

/-- /repo/assets/test/int32_scalar.npy, written by NumPy. -/
def exScalar : Bytes :=
  [147, 78, 85, 77, 80, 89, 1, 0, 118, 0, 123, 39, 100, 101, 115, 99, 114, 39, 58, 32, 39, 60, 105, 52, 39, 44, 32, 39, 102,
   111, 114, 116, 114, 97, 110, 95, 111, 114, 100, 101, 114, 39, 58, 32, 70, 97, 108, 115, 101, 44, 32, 39, 115, 104, 97, 112,
   101, 39, 58, 32, 40, 41, 44, 32, 125, 32, 32, 32, 32, 32, 32, 32, 32, 32, 32, 32, 32, 32, 32, 32, 32, 32, 32, 32, 32, 32, 32,
   32, 32, 32, 32, 32, 32, 32, 32, 32, 32, 32, 32, 32, 32, 32, 32, 32, 32, 32, 32, 32, 32, 32, 32, 32, 32, 32, 32, 32, 32, 32,
   32, 32, 32, 32, 32, 32, 32, 32, 32, 10, 42, 0, 0, 0]

/-- `numpy.savez` of two arrays of which one has a key that ends with ".npy". -/
def exSavez : List NumpyItem := [⟨b!"n", exScalar, []⟩, ⟨b!"a.npy", exScalar, []⟩]

/-- The hypotheses of `C67_numpy` hold for it, and both arrays are read. -/
example (modern : Bool) : ∃ r, Reader.open (IStream.ofFile (numpyArchive false modern exSavez)) = .ok r ∧
    (Reader.read exCfg noCodec (fixedOps .int32) b!"a.npy.npy" r).1 = loadFromString exCfg (fixedOps .int32) exScalar ∧
    (Reader.read exCfg noCodec (fixedOps .int32) b!"n" (r.after exCfg noCodec [.peek b!"z"])).1.toOption.map (fun t => (t.shape, t.values)) =
      some ([], [[42]]) := by
  have hl : (numpyArchive false modern exSavez).length < 2 ^ 32 := by revert modern; decide +kernel
  obtain ⟨r, h1, -, h3⟩ := C67_numpy exCfg noCodec modern exSavez (by decide) (by decide) (by decide) (by decide +kernel) hl _ (.inr rfl)
  refine ⟨r, h1, ((h3 [] b!"a.npy.npy").1 ⟨b!"a.npy", exScalar, []⟩ (by simp [exSavez]) (.inl rfl)).1 _ _, ?_⟩
  rw [((h3 [.peek b!"z"] b!"n").1 ⟨b!"n", exScalar, []⟩ (by simp [exSavez]) (.inr ⟨rfl, by decide⟩)).1 _ _]
  decide +kernel

/-- The same file compressed with zlib, as `numpy.savez_compressed` does. -/
def exScalarPacked : Bytes :=
  [155, 236, 23, 234, 27, 16, 201, 200, 80, 198, 80, 173, 158, 146, 90, 156, 92, 164, 110, 165, 160, 110, 147, 105, 162,
   174, 163, 160, 158, 150, 95, 84, 82, 148, 152, 23, 159, 95, 148, 146, 10, 18, 119, 75, 204, 41, 78, 5, 138, 23, 103, 36,
   22, 164, 2, 249, 26, 154, 58, 10, 181, 10, 20, 1, 46, 45, 6, 6, 6, 0]

def exScalarToks : List Spec.Deflate.Tok :=
  [.lit 147, .lit 78, .lit 85, .lit 77, .lit 80, .lit 89, .lit 1, .lit 0, .lit 118, .lit 0, .lit 123, .lit 39, .lit 100,
   .lit 101, .lit 115, .lit 99, .lit 114, .lit 39, .lit 58, .lit 32, .lit 39, .lit 60, .lit 105, .lit 52, .lit 39, .lit 44,
   .lit 32, .lit 39, .lit 102, .lit 111, .lit 114, .lit 116, .lit 114, .lit 97, .lit 110, .lit 95, .lit 111, .lit 114, .lit
   100, .lit 101, .copy 258 0 8 7, .lit 70, .lit 97, .lit 108, .lit 115, .lit 101, .copy 257 0 8 7, .lit 115, .lit 104,
   .lit 97, .lit 112, .lit 101, .copy 257 0 7 3, .lit 40, .lit 41, .lit 44, .lit 32, .lit 125, .lit 32, .copy 276 2 0 0,
   .lit 10, .lit 42, .lit 0, .lit 0, .lit 0]

theorem exScalarPacked_inflates : Inflates exScalarPacked exScalar :=
  ⟨[.fixed exScalarToks], [false, false], by decide, by decide +kernel, by decide +kernel, by decide +kernel⟩

/-- The hypotheses of `C67_numpy_compressed` hold for it. -/
example (modern : Bool) (j : Junk) : ∃ r, Reader.open (IStream.ofFile (numpyArchive true modern [⟨b!"n", exScalar, exScalarPacked⟩])) = .ok r ∧
    ((Reader.read exCfg (miniz exCfg j (2 ^ 36)) (fixedOps .int32) b!"n" r).1.toOption.map fun t => (t.shape, t.values)) =
      some ([], [[42]]) := by
  have hl : (numpyArchive true modern [⟨b!"n", exScalar, exScalarPacked⟩]).length < 2 ^ 32 := by revert modern; decide +kernel
  obtain ⟨r, h1, h2⟩ := C67_numpy_compressed exCfg j (2 ^ 36) (le_refl _) rfl modern [⟨b!"n", exScalar, exScalarPacked⟩]
    (by decide) (by decide) (by decide) (by decide +kernel)
    (by intro a ha; rw [List.mem_singleton.1 ha]; exact exScalarPacked_inflates) hl (by decide +kernel) _ (.inr rfl)
  refine ⟨r, h1, ?_⟩
  have := (h2 [] b!"n" _ (List.mem_singleton.2 rfl) (.inr ⟨rfl, by decide⟩) _ (fixedOps .int32)).1 (by decide +kernel)
  change (Reader.read exCfg (miniz exCfg j (2 ^ 36)) (fixedOps .int32) b!"n" r).1 = _ at this
  rw [this]
  decide +kernel

/-- /repo/assets/test/test_compressed.npz, written by NumPy. -/
def exTestCompressed : Bytes :=
  [80, 75, 3, 4, 20, 0, 0, 0, 8, 0, 0, 0, 33, 0, 245, 64, 207, 197, 162, 0, 0, 0, 203, 0, 0, 0, 9, 0, 0, 0, 99, 111, 108, 111,
   114, 46, 110, 112, 121, 157, 136, 199, 18, 193, 80, 0, 0, 19, 93, 244, 222, 121, 234, 75, 136, 18, 17, 37, 122, 139, 50, 195,
   184, 56, 56, 153, 140, 196, 56, 24, 49, 9, 46, 248, 10, 63, 44, 126, 193, 206, 94, 118, 63, 235, 237, 106, 179, 67, 145, 7,
   242, 132, 130, 168, 28, 100, 200, 2, 248, 186, 83, 144, 4, 240, 40, 201, 55, 153, 191, 236, 37, 89, 16, 127, 159, 227, 207,
   138, 168, 126, 229, 196, 95, 69, 181, 113, 134, 4, 170, 52, 65, 130, 55, 248, 15, 12, 65, 53, 90, 157, 222, 96, 52, 153, 49,
   139, 213, 102, 119, 56, 93, 110, 143, 215, 231, 15, 4, 67, 225, 72, 52, 22, 79, 128, 100, 42, 157, 201, 230, 32, 78, 228, 11,
   100, 177, 84, 174, 80, 85, 186, 198, 212, 27, 205, 22, 219, 238, 116, 123, 253, 193, 112, 52, 158, 76, 185, 217, 124, 177,
   252, 2, 80, 75, 3, 4, 20, 0, 0, 0, 8, 0, 0, 0, 33, 0, 40, 233, 206, 241, 140, 0, 0, 0, 228, 0, 0, 0, 9, 0, 0, 0, 100, 101,
   112, 116, 104, 46, 110, 112, 121, 157, 200, 33, 14, 194, 64, 16, 133, 225, 197, 162, 56, 194, 184, 133, 164, 2, 65, 13, 33,
   161, 53, 56, 72, 13, 2, 5, 27, 186, 13, 130, 208, 102, 151, 96, 8, 201, 74, 36, 9, 6, 89, 137, 68, 34, 123, 20, 142, 194, 15,
   71, 232, 203, 124, 147, 188, 119, 95, 44, 231, 217, 170, 163, 78, 234, 172, 115, 235, 183, 78, 143, 69, 79, 138, 145, 142,
   68, 23, 165, 59, 58, 115, 88, 151, 46, 183, 191, 125, 102, 246, 222, 178, 251, 157, 169, 44, 189, 31, 71, 18, 15, 34, 185,
   72, 235, 116, 213, 63, 97, 202, 75, 56, 4, 212, 104, 240, 129, 74, 149, 234, 65, 48, 68, 130, 12, 27, 84, 8, 184, 226, 134,
   7, 106, 60, 241, 194, 27, 77, 250, 5, 80, 75, 3, 4, 20, 0, 0, 0, 8, 0, 0, 0, 33, 0, 85, 36, 39, 182, 185, 0, 0, 0, 16, 2, 0,
   0, 11, 0, 0, 0, 117, 110, 105, 99, 111, 100, 101, 46, 110, 112, 121, 157, 207, 189, 10, 194, 48, 20, 64, 225, 186, 250, 20,
   217, 162, 144, 65, 171, 241, 15, 103, 55, 197, 165, 131, 147, 4, 27, 113, 16, 43, 137, 184, 136, 79, 225, 11, 219, 131, 247,
   130, 115, 3, 151, 67, 67, 243, 145, 124, 118, 213, 118, 127, 232, 21, 207, 226, 101, 235, 152, 79, 201, 174, 140, 93, 87,
   165, 117, 198, 158, 155, 244, 72, 225, 118, 108, 82, 29, 217, 223, 132, 107, 142, 237, 126, 190, 132, 123, 108, 191, 7, 222,
   153, 210, 25, 63, 116, 230, 109, 186, 173, 254, 168, 248, 173, 177, 180, 148, 78, 164, 83, 169, 151, 206, 164, 115, 233, 66,
   186, 252, 115, 48, 169, 14, 38, 197, 164, 152, 20, 147, 98, 82, 76, 138, 73, 49, 57, 139, 167, 6, 213, 193, 163, 120, 20,
   143, 226, 81, 60, 138, 71, 241, 56, 131, 167, 119, 81, 131, 234, 224, 81, 60, 138, 71, 241, 40, 30, 197, 227, 95, 60, 125,
   147, 222, 69, 13, 170, 131, 71, 241, 40, 30, 197, 163, 120, 95, 80, 75, 1, 2, 20, 0, 20, 0, 0, 0, 8, 0, 0, 0, 33, 0, 245, 64,
   207, 197, 162, 0, 0, 0, 203, 0, 0, 0, 9, 0, 0, 0, 0, 0, 0, 0, 0, 0, 0, 0, 128, 1, 0, 0, 0, 0, 99, 111, 108, 111, 114, 46,
   110, 112, 121, 80, 75, 1, 2, 20, 0, 20, 0, 0, 0, 8, 0, 0, 0, 33, 0, 40, 233, 206, 241, 140, 0, 0, 0, 228, 0, 0, 0, 9, 0, 0,
   0, 0, 0, 0, 0, 0, 0, 0, 0, 128, 1, 201, 0, 0, 0, 100, 101, 112, 116, 104, 46, 110, 112, 121, 80, 75, 1, 2, 20, 0, 20, 0, 0,
   0, 8, 0, 0, 0, 33, 0, 85, 36, 39, 182, 185, 0, 0, 0, 16, 2, 0, 0, 11, 0, 0, 0, 0, 0, 0, 0, 0, 0, 0, 0, 128, 1, 124, 1, 0, 0,
   117, 110, 105, 99, 111, 100, 101, 46, 110, 112, 121, 80, 75, 5, 6, 0, 0, 0, 0, 3, 0, 3, 0, 167, 0, 0, 0, 94, 2, 0, 0, 0, 0]

/-- A file of it. -/
def exAsset (name : Bytes) (crc size offset len : Nat) : ForeignItem :=
  ⟨name, 8, crc, size, (exTestCompressed.drop (offset + 30 + name.length)).take len, offset, .plain, 20, 20, 20, 0, 0, 33, 0, 0, 0x1800000⟩

def exAssets : List ForeignItem :=
  [exAsset b!"color.npy" 0xC5CF40F5 203 0 162, exAsset b!"depth.npy" 0xF1CEE928 228 201 140, exAsset b!"unicode.npy" 0xB6272455 528 380 185]

set_option maxRecDepth 10000 in
/-- The archive the library is tested with is one of those `C67_foreign` is about. -/
theorem exTestCompressed_foreign : ForeignArchive exTestCompressed exAssets := by
  refine ⟨⟨?_, by decide, exTestCompressed.take 606, [], 167, by decide +kernel, by decide, by decide +kernel⟩, ?_⟩
  · intro z hz
    simp only [exAssets, List.mem_cons, List.not_mem_nil, or_false] at hz
    rcases hz with rfl | rfl | rfl
    all_goals exact ⟨by decide +kernel, by decide +kernel, by decide +kernel, by decide +kernel, by decide +kernel, by decide +kernel,
      by decide +kernel, by decide +kernel⟩
  · intro z hz
    simp only [exAssets, List.mem_cons, List.not_mem_nil, or_false] at hz
    rcases hz with rfl | rfl | rfl
    all_goals exact ⟨_, (List.prefix_iff_eq_append.1 (by decide +kernel)).symm⟩

example : ∃ r, Reader.open (IStream.ofFile exTestCompressed) = .ok r ∧ r.contains b!"depth.npy" = true ∧
    (Reader.peek exCfg noCodec b!"image" r).1 = .error (.throw (.invalidArgument .filename)) := by
  obtain ⟨r, h1, h2⟩ := C67_foreign exCfg noCodec _ _ exTestCompressed_foreign _ (.inr rfl)
  refine ⟨r, h1, (((h2 []).2.2 b!"depth.npy").1).2 ⟨exAsset b!"depth.npy" 0xF1CEE928 228 201 140, by simp [exAssets], rfl⟩, (((h2 []).2.2 b!"image").2.2 ?_).2⟩
  decide +kernel

/-- An archive as Info-ZIP's `zip` makes it, with a time stamp (tag 0x5455) as extra field; one with a comment; one whose
file was streamed. -/
def exPlain : ForeignItem := ⟨b!"a.npy", 0, 0x8CDC1683, 1, b!"x", 0, .plain, 20, 20, 20, 0, 0, 33, 0, 0, 0⟩

theorem exPlain_ok : exPlain.Ok := ⟨by decide, by decide, by decide, by decide, by decide, by decide, by decide, by decide⟩

example : Reader.open (IStream.ofFile (foreignLocal exPlain ++ foreignCentral exPlain ++
      Spec.foreignCentralWith exPlain (Spec.le 2 0x5455 ++ [5, 0, 3, 0, 0, 0, 0]) [] ++ [] ++ Spec.zipEnd (1 + 1 + 0) 119 36)) =
    .error (.throw (.runtimeError .badTag)) :=
  C67_extra_field _ (foreignLocal exPlain) [] [exPlain] exPlain 0x5455 [5, 0, 3, 0, 0, 0, 0] [] 0 119 (by decide +kernel) (by decide) (by decide) (by decide)
    (by intro z hz; rw [List.mem_singleton.1 hz]; exact exPlain_ok) exPlain_ok (by decide) (by decide) (by decide) _ (.inr rfl)

example : Reader.open (IStream.ofFile (foreignLocal exPlain ++ [] ++ Spec.foreignCentralWith exPlain [] b!"comment" ++
      (foreignCentral exPlain ++ []) ++ Spec.zipEnd (0 + 2 + 0) 109 36)) = .error (.throw (.runtimeError .badSignature)) :=
  C67_comment _ (foreignLocal exPlain) [] [] exPlain exPlain b!"comment" 0 109 (by decide +kernel) (by decide) (by decide) (by decide)
    (by simp) exPlain_ok (by decide) (by decide) _ (.inr rfl)

example : ∃ r, Reader.open (IStream.ofFile (Spec.streamedLocal exPlain ++ foreignCentral exPlain ++ [] ++ Spec.zipEnd 1 51 52)) = .ok r ∧
    (Reader.peek exCfg noCodec b!"a" r).1 = .error (.throw (.runtimeError .headersDisagree)) := by
  have hd : Spec.ForeignDirectory (Spec.streamedLocal exPlain ++ foreignCentral exPlain ++ [] ++ Spec.zipEnd 1 51 52) [exPlain] :=
    ⟨by intro z hz; rw [List.mem_singleton.1 hz]; exact exPlain_ok, by decide, Spec.streamedLocal exPlain, [], 51, by decide, by decide,
      by decide +kernel⟩
  obtain ⟨r, h1, -, -, h2⟩ := C67_streamed exCfg noCodec _ _ hd b!"a" exPlain (by decide +kernel)
    (foreignCentral exPlain ++ [] ++ Spec.zipEnd 1 51 52) (by decide +kernel) (.inl (by decide)) _ (.inr rfl)
  exact ⟨r, h1, h2⟩

end Npy
