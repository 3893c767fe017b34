import Verif.Proofs.Walk
import Verif.Props.Damage
import Verif.Props.InflateAll
import Verif.Model.Miniz
/-!
# What readers do with any bytes (C71)

`Spec/Walk` says which headers a reader finds in a byte string: `dirCount` of them, the k-th at `dirPos b k`.
Byte strings without an end record in their last 22 bytes are rejected or, below 22 bytes, undefined (C46).
-/

namespace Npy
open Spec (dirCount dirPos centralName CentralOk CentralAt LocalOk LocalAt localName entryData)

/-! ### C71: opening -/

/-- **C71** For every byte string with an end record at its end, opened as a string or as a file: it opens exactly if every header
of its directory can be read. If one cannot, the first that cannot decides: the constructor throws `std::runtime_error` if
there are four bytes at its place, and is undefined behaviour otherwise. -/
theorem C71_open (b : Bytes) (s : IStream) (hs : s = IStream.ofBytes b ∨ s = IStream.ofFile b) (hlen : 22 ≤ b.length)
    (hsig : (b.drop (b.length - 22)).take 4 = [0x50, 0x4B, 5, 6]) :
    ((∃ r, Reader.open s = .ok r) ↔ ∀ k < dirCount b, CentralOk b (dirPos b k)) ∧
    ((∃ w, Reader.open s = .error (.throw (.runtimeError w))) ↔
      ∃ k < dirCount b, (∀ i < k, CentralOk b (dirPos b i)) ∧ ¬CentralOk b (dirPos b k) ∧ dirPos b k + 4 ≤ b.length) ∧
    (Reader.open s = .error .ub ↔
      ∃ k < dirCount b, (∀ i < k, CentralOk b (dirPos b i)) ∧ b.length < dirPos b k + 4) := by
  have trichotomy : (∀ k < dirCount b, CentralOk b (dirPos b k)) ∨
      ∃ k < dirCount b, (∀ i < k, CentralOk b (dirPos b i)) ∧ ¬CentralOk b (dirPos b k) := by
    by_cases h : ∀ k < dirCount b, CentralOk b (dirPos b k)
    · exact .inl h
    · right
      classical
      have h' : ∃ k, k < dirCount b ∧ ¬CentralOk b (dirPos b k) := by
        by_contra hc
        exact h fun k hk => by_contra fun hn => hc ⟨k, hk, hn⟩
      refine ⟨Nat.find h', (Nat.find_spec h').1, fun i hi => ?_, (Nat.find_spec h').2⟩
      have hm := Nat.find_min h' hi
      by_contra hn
      exact hm ⟨lt_trans hi (Nat.find_spec h').1, hn⟩
  have cut : ∀ p, CentralOk b p → p + 4 ≤ b.length := by
    intro p hok
    have := congrArg List.length hok.sig
    rw [List.length_take, List.length_drop] at this
    simp only [List.length_cons, List.length_nil] at this
    omega
  refine ⟨⟨fun ⟨r, hr⟩ => ?_, fun h => ?_⟩, ⟨fun ⟨w, hw⟩ => ?_, fun ⟨k, hk, hb, hn, hl⟩ => ?_⟩, ⟨fun hu => ?_, fun ⟨k, hk, hb, hl⟩ => ?_⟩⟩
  · rcases trichotomy with h | ⟨k, hk, hb, hn⟩
    · exact h
    · exfalso
      obtain ⟨h1, h2⟩ := open_bad hs hlen hsig hk hb
      rcases Nat.lt_or_ge b.length (dirPos b k + 4) with hl | hl
      · rw [h1 hl] at hr; simp at hr
      · obtain ⟨w, hw⟩ := h2 hl hn
        rw [hw] at hr; simp at hr
  · obtain ⟨r, f, h1, -⟩ := open_ok hs hlen hsig h
    exact ⟨r, h1⟩
  · rcases trichotomy with h | ⟨k, hk, hb, hn⟩
    · obtain ⟨r, f, h1, -⟩ := open_ok hs hlen hsig h
      rw [h1] at hw; simp at hw
    · obtain ⟨h1, -⟩ := open_bad hs hlen hsig hk hb
      rcases Nat.lt_or_ge b.length (dirPos b k + 4) with hl | hl
      · rw [h1 hl] at hw; simp at hw
      · exact ⟨k, hk, hb, hn, hl⟩
  · exact (open_bad hs hlen hsig hk hb).2 hl hn
  · rcases trichotomy with h | ⟨k, hk, hb, hn⟩
    · obtain ⟨r, f, h1, -⟩ := open_ok hs hlen hsig h
      rw [h1] at hu; simp at hu
    · obtain ⟨-, h2⟩ := open_bad hs hlen hsig hk hb
      rcases Nat.lt_or_ge b.length (dirPos b k + 4) with hl | hl
      · exact ⟨k, hk, hb, hl⟩
      · obtain ⟨w, hw⟩ := h2 hl hn
        rw [hw] at hu; simp at hu
  · exact (open_bad hs hlen hsig hk hb).1 hl

/-- An opened reader, and the end record it needed. -/
theorem opened_inv {b : Bytes} {s : IStream} (hs : s = IStream.ofBytes b ∨ s = IStream.ofFile b) {r : Reader}
    (h : Reader.open s = .ok r) : 22 ≤ b.length ∧ (b.drop (b.length - 22)).take 4 = [0x50, 0x4B, 5, 6] ∧
      ∀ k < dirCount b, CentralOk b (dirPos b k) := by
  have h1 : 22 ≤ b.length := by
    by_contra hc
    rw [C46_short b (by omega) s hs] at h
    simp at h
  have h2 : (b.drop (b.length - 22)).take 4 = [0x50, 0x4B, 5, 6] := by
    by_contra hc
    rw [C46_end_record b h1 hc s hs] at h
    simp at h
  exact ⟨h1, h2, (C71_open b s hs h1 h2).1.1 ⟨r, h⟩⟩

/-- **C71** What an opened reader lists: at any time `keys()` is the sorted list of the names in the headers, and `contains` tells
if one of them is the name asked for. -/
theorem C71_keys (cfg : Cfg) (codec : Codec) (b : Bytes) (s : IStream) (hs : s = IStream.ofBytes b ∨ s = IStream.ofFile b) (r : Reader)
    (h : Reader.open s = .ok r) (calls : List RdCall) :
    (r.after cfg codec calls).keys.Perm ((List.range (dirCount b)).map fun k => centralName b (dirPos b k)) ∧
    (r.after cfg codec calls).keys.Pairwise (· ≤ ·) ∧
    ∀ name, ((r.after cfg codec calls).contains name = true ↔ ∃ k < dirCount b, centralName b (dirPos b k) = name) := by
  obtain ⟨h1, h2, h3⟩ := opened_inv hs h
  obtain ⟨r', f, e, k1, k2, -⟩ := open_ok hs h1 h2 h3
  rw [h] at e
  simp only [Except.ok.injEq] at e
  subst e
  obtain ⟨a1, a2, -⟩ := after_keeps cfg codec r calls
  refine ⟨by rw [a2, k1]; exact sortKeys_perm _, by rw [a2, k1]; exact sortKeys_sorted _, fun name => ?_⟩
  unfold Reader.contains
  rw [a1, k2, Option.isSome_map]
  unfold Spec.dirFind
  rw [List.find?_isSome]
  simp

/-! ### C71: reading -/

/-- **C71** Asking an opened reader for a name that no header has, with or without ".npy", throws `std::invalid_argument`. -/
theorem C71_absent (cfg : Cfg) (codec : Codec) (b : Bytes) (s : IStream) (hs : s = IStream.ofBytes b ∨ s = IStream.ofFile b) (r : Reader)
    (h : Reader.open s = .ok r) (calls : List RdCall) (name : Bytes) (hn : Spec.dirResolve b name = none) :
    (Reader.readFile codec name (r.after cfg codec calls)).1 = .error (.throw (.invalidArgument .filename)) := by
  obtain ⟨h1, h2, h3⟩ := opened_inv hs h
  obtain ⟨r', f, e, k1, k2, -⟩ := open_ok hs h1 h2 h3
  rw [h] at e
  simp only [Except.ok.injEq] at e
  subst e
  obtain ⟨a1, -⟩ := after_keeps cfg codec r calls
  rw [readerReadFile_eq]
  simp only []
  rw [a1]
  have hres : resolveName r.entries name = .error (.throw (.invalidArgument .filename)) := by
    unfold Spec.dirResolve at hn
    unfold resolveName
    rw [k2, k2, Option.isSome_map, Option.isSome_map]
    split at hn
    · simp at hn
    · rename_i hd
      rw [hd, if_neg (by simp)]
      have : Spec.dirFind b (name ++ b!".npy") = none := by simpa using hn
      rw [this, if_neg (by simp)]
  unfold Npy.readFile
  rw [SM.bind_apply, SM.lift_apply, hres]

/-- **C71** The contents of an entry, for every byte string that opens and every name. `k` is the last header of the directory
with that name, else with ".npy" appended; it gives method, CRC-32, sizes and the place `q` of the local header. As long as
no earlier call ran past the end of the data, reading
- is undefined behaviour if there are not four bytes at `q`;
- throws `std::runtime_error` if there are, but no local header that can be read;
- throws `std::runtime_error` if the local header has another name, method, CRC-32 or size;
- throws `std::length_error` if the size is over the limit of `std::string`;
- otherwise depends on the data after the local header: it does what the decompressor does (method 8), and then checks
  the CRC-32. -/
theorem C71_read (cfg : Cfg) (codec : Codec) (b : Bytes) (s : IStream) (hs : s = IStream.ofBytes b ∨ s = IStream.ofFile b) (r : Reader)
    (h : Reader.open s = .ok r) (hlen : b.length < 2 ^ 63) (calls : List RdCall)
    (hfine : (r.after cfg codec calls).input.fail = false) (name stored : Bytes) (k : Nat)
    (hn : Spec.dirResolve b name = some (k, stored)) :
    ∃ method crc csize usize q, CentralAt b (dirPos b k) stored method crc csize usize q ∧
      let result := (Reader.readFile codec name (r.after cfg codec calls)).1
      (b.length < q + 4 → result = .error .ub) ∧
      (q + 4 ≤ b.length → ¬LocalOk b q → ∃ w, result = .error (.throw (.runtimeError w))) ∧
      (LocalOk b q → ¬(LocalAt b q stored method crc csize usize ∧ localName b q = stored) →
        result = .error (.throw (.runtimeError .headersDisagree))) ∧
      (LocalAt b q stored method crc csize usize → localName b q = stored →
        (csize > 2 ^ 63 - 2 → result = .error (.throw (.lengthError .std))) ∧
        (csize ≤ 2 ^ 63 - 2 → result =
          match (if method = 8 then codec.inflate (entryData b q csize) else .ok (entryData b q csize)) with
          | .error e => .error e
          | .ok bytes => if npyCrc32 bytes = crc then .ok bytes else .error (.throw (.runtimeError .crcMismatch)))) := by
  obtain ⟨h1, h2, h3⟩ := opened_inv hs h
  obtain ⟨r', f, e, k1, k2, k3, k4⟩ := open_ok hs h1 h2 h3
  rw [h] at e
  simp only [Except.ok.injEq] at e
  subst e
  obtain ⟨a1, -, a3, a4, a5⟩ := after_keeps cfg codec r calls
  have hfind : Spec.dirFind b stored = some k ∧ resolveName r.entries name = .ok stored := by
    unfold Spec.dirResolve at hn
    unfold resolveName
    rw [k2, k2, Option.isSome_map, Option.isSome_map]
    split at hn
    · rename_i k' hd
      simp only [Option.some.injEq, Prod.mk.injEq] at hn
      obtain ⟨rfl, rfl⟩ := hn
      exact ⟨hd, by rw [hd, if_pos (by simp)]⟩
    · rename_i hd
      rw [Option.map_eq_some_iff] at hn
      obtain ⟨k', hd', heq⟩ := hn
      simp only [Prod.mk.injEq] at heq
      obtain ⟨rfl, rfl⟩ := heq
      exact ⟨hd', by rw [hd, if_neg (by simp), hd', if_pos (by simp)]⟩
  obtain ⟨hf1, hf2⟩ := hfind
  have hmem := List.mem_of_find?_eq_some hf1
  have hname := List.find?_some hf1
  simp only [decide_eq_true_eq] at hname
  simp only [List.mem_reverse, List.mem_range] at hmem
  obtain ⟨g1, g2, g3⟩ := k3 k hmem
  rw [hname] at g1
  have hlook : r.entries.lookup stored = some (f k) := by rw [k2, hf1]; rfl
  refine ⟨_, _, _, _, _, by rw [g1] at g3; exact g3, ?_⟩
  rw [readerReadFile_eq]
  simp only []
  rw [a1]
  generalize r.after cfg codec calls = r'' at *
  have ha : r''.input.all = b := a3.trans k4.all
  have ho : r''.input.isOpen = true := a4.trans k4.isOpen
  -- reading depends on the contents only
  have hind : (Npy.readFile codec r.entries name r''.input).1 =
      (Npy.readFile codec r.entries name { r''.input with rest := b }).1 :=
    readFile_indep codec _ name rfl rfl rfl hfine hfine
  rw [hind]
  exact readFile_outcome codec (s := { r''.input with rest := b }) ha ho hfine ⟨0, by simp [ha]⟩ hlen hf2 hlook g1 g2

/-- **C71** with the decompressor of the library, for entries with at most 1 MiB of data: if the contents are returned, they
have the CRC-32 of the directory and, if compressed, are what RFC 1951 says the data stand for, unless the data break the format within a block
(`Faulty`, C68). -/
theorem C71_sound (cfg : Cfg) (j : Junk) (fuel : Nat) (b : Bytes) (s : IStream) (hs : s = IStream.ofBytes b ∨ s = IStream.ofFile b)
    (r : Reader) (h : Reader.open s = .ok r) (calls : List RdCall) (name bytes : Bytes)
    (hget : (Reader.readFile (miniz cfg j fuel) name (r.after cfg (miniz cfg j fuel) calls)).1 = .ok bytes)
    (hfuel : 2064 * 1048576 + 3 ≤ fuel) :
    ∃ stored method crc csize usize p q, (stored = name ∨ stored = name ++ b!".npy") ∧
      CentralAt b p stored method crc csize usize q ∧ LocalAt b q stored method crc csize usize ∧ npyCrc32 bytes = crc ∧
      (method ≠ 8 → bytes = entryData b q csize) ∧
      (method = 8 → cfg.nativeBig = false → csize ≤ 1048576 → ¬Spec.Deflate.Faulty (entryData b q csize) →
        Spec.Deflate.Inflates (entryData b q csize) bytes) := by
  obtain ⟨stored, method, crc, csize, usize, p, q, c1, c2, c3, c4, raw, c5, c6⟩ := C39_checked cfg _ b s hs r h calls name bytes hget
  have hraw : raw = entryData b q csize := c5
  rw [hraw] at c6
  refine ⟨stored, method, crc, csize, usize, p, q, c1, c2, c3, c4, fun hm => ?_, fun hm hbig hsz hf => ?_⟩
  · rw [if_neg hm] at c6; exact c6
  · rw [if_pos hm] at c6
    have hl : (entryData b q csize).length = csize := by
      unfold Spec.entryData
      rw [List.length_append, List.length_take, List.length_replicate, List.length_drop]
      omega
    have h68 := C68_returned (entryData b q csize) bytes (by rw [hl]; exact hsz) fuel (by rw [hl]; omega) (by simpa only [miniz, hbig] using c6)
    exact h68.resolve_right hf

/-- **C71** So reading an entry is never undefined and always ends, if no earlier call ran past the end of the data, the directory puts
its local header where there are four bytes, and the data, if compressed, are at most 1 MiB and do not break the format
within a block. -/
theorem C71_safe (cfg : Cfg) (j : Junk) (fuel : Nat) (b : Bytes) (s : IStream) (hs : s = IStream.ofBytes b ∨ s = IStream.ofFile b)
    (r : Reader) (h : Reader.open s = .ok r) (hlen : b.length < 2 ^ 63) (calls : List RdCall)
    (hfine : (r.after cfg (miniz cfg j fuel) calls).input.fail = false) (hfuel : 2064 * 1048576 + 3 ≤ fuel) (name : Bytes)
    (hent : ∀ k stored method crc csize usize q, Spec.dirResolve b name = some (k, stored) →
      CentralAt b (dirPos b k) stored method crc csize usize q → q + 4 ≤ b.length ∧
        (method = 8 → cfg.nativeBig = false ∧ csize ≤ 1048576 ∧ ¬Spec.Deflate.Faulty (entryData b q csize))) :
    (∃ bytes, (Reader.readFile (miniz cfg j fuel) name (r.after cfg (miniz cfg j fuel) calls)).1 = .ok bytes) ∨
    ∃ exn, (Reader.readFile (miniz cfg j fuel) name (r.after cfg (miniz cfg j fuel) calls)).1 = .error (.throw exn) := by
  match hn : Spec.dirResolve b name with
  | none => exact .inr ⟨_, C71_absent cfg _ b s hs r h calls name hn⟩
  | some (k, stored) =>
    obtain ⟨method, crc, csize, usize, q, c1, c2, c3, c4, c5⟩ := C71_read cfg _ b s hs r h hlen calls hfine name stored k hn
    obtain ⟨e1, e2⟩ := hent k stored method crc csize usize q hn c1
    by_cases hok : LocalOk b q
    swap
    · obtain ⟨w, hw⟩ := c3 e1 hok
      exact .inr ⟨_, hw⟩
    by_cases hag : LocalAt b q stored method crc csize usize ∧ localName b q = stored
    swap
    · exact .inr ⟨_, c4 hok hag⟩
    obtain ⟨d1, d2⟩ := c5 hag.1 hag.2
    rcases Nat.lt_or_ge (2 ^ 63 - 2) csize with hb | hb
    · exact .inr ⟨_, d1 hb⟩
    rw [d2 hb]
    have hl : (entryData b q csize).length = csize := by
      unfold Spec.entryData
      rw [List.length_append, List.length_take, List.length_replicate, List.length_drop]
      omega
    have fin : ∀ bytes, (∃ bytes', (if npyCrc32 bytes = crc then Except.ok bytes else
          Except.error (.throw (.runtimeError .crcMismatch)) : Except Err Bytes) = .ok bytes') ∨
        ∃ exn, (if npyCrc32 bytes = crc then Except.ok bytes else
          Except.error (.throw (.runtimeError .crcMismatch)) : Except Err Bytes) = .error (.throw exn) := by
      intro bytes
      by_cases hc : npyCrc32 bytes = crc
      · rw [if_pos hc]; exact .inl ⟨_, rfl⟩
      · rw [if_neg hc]; exact .inr ⟨_, rfl⟩
    by_cases hm : method = 8
    · obtain ⟨hbig, f1, f2⟩ := e2 hm
      rw [if_pos hm]
      rcases C68_sound (entryData b q csize) f2 (by rw [hl]; exact f1) fuel (by rw [hl]; omega) with hx | ⟨out, -, hx⟩
      · have : (miniz cfg j fuel).inflate (entryData b q csize) = .error (.throw (.runtimeError .inflateError)) := by
          simpa only [miniz, hbig] using hx
        rw [this]
        exact .inr ⟨_, rfl⟩
      · have : (miniz cfg j fuel).inflate (entryData b q csize) = .ok out := by simpa only [miniz, hbig] using hx
        rw [this]
        exact fin out
    · rw [if_neg hm]
      exact fin _

/-! ### Concrete cases -/

/-- An end record alone, with no entries: it opens. -/
example : ∃ r, Reader.open (IStream.ofFile (Spec.zipEnd 0 0 1000)) = .ok r :=
  (C71_open _ _ (.inr rfl) (by decide) (by decide +kernel)).1.2 fun k hk => absurd hk (by
    have : dirCount (Spec.zipEnd 0 0 1000) = 0 := by decide +kernel
    omega)

/-- An end record alone, with one entry said to be past its end: undefined. -/
example : Reader.open (IStream.ofFile (Spec.zipEnd 1 0 1000)) = .error .ub :=
  (C71_open _ _ (.inr rfl) (by decide) (by decide +kernel)).2.2.2 ⟨0, by decide +kernel, fun i hi => by omega, by decide +kernel⟩

/-- An end record alone, with one entry said to be where the record is: an exception. -/
example : ∃ w, Reader.open (IStream.ofBytes (Spec.zipEnd 1 0 0)) = .error (.throw (.runtimeError w)) :=
  (C71_open _ _ (.inl rfl) (by decide) (by decide +kernel)).2.1.2 ⟨0, by decide +kernel, fun i hi => by omega,
    fun h => absurd h.sig (by decide +kernel), by decide +kernel⟩

theorem exTwoBad_resolve : Spec.dirResolve exTwoBad b!"b" = some (1, b!"b.npy") := by decide +kernel
theorem exTwoBad_small : exTwoBad.length < 2 ^ 63 := by decide +kernel
theorem exTwoBad_opens : Reader.open (IStream.ofBytes exTwoBad) = .ok (exReader exTwoBad) := by decide +kernel

/-- `C71_read` applies to the archive with the damaged entry `a`, after other calls. -/
example : ∃ method crc csize usize q, CentralAt exTwoBad (dirPos exTwoBad 1) b!"b.npy" method crc csize usize q := by
  have hf := exTwoBad_ok
  unfold exAfter at hf
  obtain ⟨m, c, cs, us, q, h, -⟩ := C71_read exCfg noCodec exTwoBad _ (.inl rfl) _ exTwoBad_opens exTwoBad_small
    [.read _ (fixedOps .int16) b!"b", .peek b!"nope"] hf b!"b" b!"b.npy" 1 exTwoBad_resolve
  exact ⟨m, c, cs, us, q, h⟩

end Npy
