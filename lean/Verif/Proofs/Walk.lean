import Verif.Proofs.Keeps
import Verif.Spec.Walk
/-! The outcome of reading headers and directories, for any bytes. -/

namespace Npy
open Spec (leAt)

theorem Takes.fwd {α β : Type} {x : IM α} {k : Nat} {f : Bytes → α} (hx : Takes x k f) (g : α → IM β) {s : IStream}
    (hs : s.J) : ∃ s1, s1.J ∧ s1.rest = s.rest.drop k ∧ s1.all = s.all ∧ (x >>= g) s = g (f s.rest) s1 := by
  obtain ⟨s1, h1, h2, h3, h4⟩ := hx s hs
  exact ⟨s1, h2, h3, h4, by rw [SM.bind_ok h1]⟩

/-- The signature check. -/
theorem assertSig_fwd {sig r : Bytes} {s : IStream} (hat : s.At r) :
    (r.length < 4 → (assertSig sig s).1 = .error .ub) ∧
    (4 ≤ r.length → r.take 4 ≠ sig → (assertSig sig s).1 = .error (.throw (.runtimeError .badSignature))) ∧
    (4 ≤ r.length → r.take 4 = sig → ∃ s', assertSig sig s = (.ok (), s') ∧ s'.J ∧ s'.rest = r.drop 4) := by
  rcases hat with ⟨hg, rfl⟩ | ⟨hg, rfl⟩
  · obtain ⟨s1, h1, h2, h3, h4⟩ := takes_read 4 s (.inl hg)
    unfold assertSig
    rw [SM.bind_ok h1]
    refine ⟨fun h => ?_, fun h hne => ?_, fun h he => ?_⟩
    · rw [if_pos (by rw [List.length_take]; omega)]; rfl
    · rw [if_neg (by rw [List.length_take]; omega), if_pos hne]; rfl
    · rw [if_neg (by rw [List.length_take]; omega), if_neg (by simpa using he)]
      exact ⟨s1, rfl, h2, h3⟩
  · refine ⟨fun _ => assertSig_bad hg, fun h => ?_, fun h => ?_⟩ <;> simp at h

theorem count_fields (f : Nat) (l : List Nat) :
    (f :: l).count 0xFFFFFFFF = l.count 0xFFFFFFFF + if f = 0xFFFFFFFF then 1 else 0 := by
  rw [List.count_cons]
  by_cases hf : f = 0xFFFFFFFF
  · rw [if_pos hf, hf]; rfl
  · rw [if_neg hf, if_neg (by simpa using hf)]

/-- The extra field: accepted exactly if it can be used. -/
theorem readZip64Extra_fwd (h0 : FileEntry) (off : Bool) {s : IStream} (hs : s.J) {xlen : Nat} (hx : 0 < xlen) :
    (Spec.ExtraOk s.rest xlen 0 (h0.fields off) → ∃ e s', readZip64Extra h0 off s = (.ok e, s')) ∧
    (¬Spec.ExtraOk s.rest xlen 0 (h0.fields off) → ∃ w, (readZip64Extra h0 off s).1 = .error (.throw (.runtimeError w))) := by
  unfold readZip64Extra read16
  obtain ⟨s1, h1', j1, r1, a1⟩ := takes_readLE 2 s hs
  rw [SM.bind_ok h1']
  have htag : leHead 2 s.rest = leAt s.rest 0 2 := leHead_eq _ _
  by_cases ht : leHead 2 s.rest = ZIP64_TAG
  swap
  · rw [if_pos ht]
    refine ⟨?_, fun _ => ⟨_, rfl⟩⟩
    rintro (h | ⟨h, -⟩)
    · omega
    · rw [htag] at ht; exact absurd h ht
  rw [if_neg (by simpa using ht)]
  obtain ⟨s2, h2', j2, r2, a2⟩ := takes_readLE 2 s1 j1
  rw [SM.bind_ok h2']
  have hsz : leHead 2 s1.rest = leAt s.rest 2 2 := by rw [leHead_eq, r1, leAt_drop]
  rw [hsz]
  have iff : Spec.ExtraOk s.rest xlen 0 (h0.fields off) ↔ 8 * (h0.fields off).count 0xFFFFFFFF ≤ leAt s.rest 2 2 := by
    unfold Spec.ExtraOk
    constructor
    · rintro (h | ⟨-, h⟩)
      · omega
      · simpa using h
    · intro h
      exact .inr ⟨by rw [← htag]; exact ht, by simpa using h⟩
  rw [iff]
  generalize leAt s.rest 2 2 = sz
  -- the three fields
  have step1 : ∃ h1 n1 s3, (if h0.uncompressedSize = ZIP64_PLACEHOLDER then do
        let v ← read64
        pure ({ h0 with uncompressedSize := v }, 8)
      else pure (h0, 0) : IM (FileEntry × Nat)) s2 = (.ok (h1, n1), s3) ∧ s3.J ∧ h1.compressedSize = h0.compressedSize ∧
      h1.offset = h0.offset ∧ n1 = 8 * [h0.uncompressedSize].count 0xFFFFFFFF := by
    by_cases hp : h0.uncompressedSize = ZIP64_PLACEHOLDER
    · rw [if_pos hp]
      obtain ⟨s', j, r, a, e⟩ := (takes_readLE 8).fwd (fun v => pure ({ h0 with uncompressedSize := v }, 8)) j2
      exact ⟨_, _, _, e, j, rfl, rfl, by rw [hp]; rfl⟩
    · rw [if_neg hp]
      exact ⟨_, _, _, rfl, j2, rfl, rfl, by rw [count_fields, if_neg (show ¬ h0.uncompressedSize = 0xFFFFFFFF from hp)]; rfl⟩
  obtain ⟨h1, n1, s3, e1, j3, k1, k2, k3⟩ := step1
  rw [SM.bind_ok e1]
  have step2 : ∃ h2 n2 s4, (if h1.compressedSize = ZIP64_PLACEHOLDER then do
        let v ← read64
        pure ({ h1 with compressedSize := v }, n1 + 8)
      else pure (h1, n1) : IM (FileEntry × Nat)) s3 = (.ok (h2, n2), s4) ∧ s4.J ∧
      h2.offset = h0.offset ∧ n2 = n1 + 8 * [h0.compressedSize].count 0xFFFFFFFF := by
    by_cases hp : h1.compressedSize = ZIP64_PLACEHOLDER
    · rw [if_pos hp]
      obtain ⟨s', j, r, a, e⟩ := (takes_readLE 8).fwd (fun v => pure ({ h1 with compressedSize := v }, n1 + 8)) j3
      exact ⟨_, _, _, e, j, k2, by rw [← k1, hp]; rfl⟩
    · rw [if_neg hp]
      exact ⟨_, _, _, rfl, j3, k2, by rw [← k1, count_fields, if_neg (show ¬ h1.compressedSize = 0xFFFFFFFF from hp)]; rfl⟩
  obtain ⟨h2, n2, s4, e2, j4, l2, l3⟩ := step2
  simp only []
  rw [SM.bind_ok e2]
  have step3 : ∃ h3 n3 s5, (if off && decide (h2.offset = ZIP64_PLACEHOLDER) then do
        let v ← read64
        pure ({ h2 with offset := v }, n2 + 8)
      else pure (h2, n2) : IM (FileEntry × Nat)) s4 = (.ok (h3, n3), s5) ∧ s5.J ∧
      n3 = n2 + 8 * (if off then [h0.offset] else []).count 0xFFFFFFFF := by
    by_cases hp : (off && decide (h2.offset = ZIP64_PLACEHOLDER)) = true
    · rw [if_pos hp]
      obtain ⟨s', j, r, a, e⟩ := (takes_readLE 8).fwd (fun v => pure ({ h2 with offset := v }, n2 + 8)) j4
      simp only [Bool.and_eq_true, decide_eq_true_eq] at hp
      exact ⟨_, _, _, e, j, by rw [hp.1, ← l2, hp.2]; rfl⟩
    · rw [if_neg hp]
      refine ⟨_, _, _, rfl, j4, ?_⟩
      cases off
      · rfl
      · simp only [Bool.true_and, decide_eq_true_eq] at hp
        simp only [if_true]
        rw [← l2, count_fields, if_neg (show ¬ h2.offset = 0xFFFFFFFF from hp)]; rfl
  obtain ⟨h3, n3, s5, e3, j5, m3⟩ := step3
  simp only []
  rw [SM.bind_ok e3]
  have hn : n3 = 8 * (h0.fields off).count 0xFFFFFFFF := by
    rw [m3, l3, k3]
    unfold FileEntry.fields
    rw [List.count_append]
    simp only [count_fields, List.count_nil]
    omega
  simp only []
  rw [← hn]
  refine ⟨fun hle => ?_, fun hgt => ?_⟩
  · rw [if_neg (by omega)]
    by_cases hq : sz > n3
    · rw [if_pos hq]
      match hk : IStream.seekgCur ((sz : Int) - n3) s5 with
      | (.ok (), s6) => exact ⟨_, _, by rw [SM.bind_ok hk]; rfl⟩
      | (.error e, s6) =>
        exfalso
        simp only [IStream.seekgCur, IStream.seekg] at hk
        split at hk
        · simp at hk
        · split at hk
          · simp at hk
          · split at hk <;> simp at hk
    · rw [if_neg hq]; exact ⟨_, _, rfl⟩
  · rw [if_pos (by omega)]
    exact ⟨_, rfl⟩

theorem readSharedHeader_fwd (b : FileEntry) {s : IStream} (hs : s.J) : ∃ e n s', readSharedHeader b s = (.ok (e, n), s') := by
  unfold readSharedHeader read16 read32
  obtain ⟨s1, h1, j1, -, -⟩ := takes_readLE 2 s hs
  rw [SM.bind_ok h1]
  obtain ⟨s2, h2, j2, -, -⟩ := takes_readLE 2 s1 j1
  rw [SM.bind_ok h2]
  obtain ⟨s3, h3, j3, -, -⟩ := takes_readLE 4 s2 j2
  rw [SM.bind_ok h3]
  obtain ⟨s4, h4, j4, -, -⟩ := takes_readLE 4 s3 j3
  rw [SM.bind_ok h4]
  obtain ⟨s5, h5, j5, -, -⟩ := takes_readLE 4 s4 j4
  rw [SM.bind_ok h5]
  obtain ⟨s6, h6, j6, -, -⟩ := takes_readLE 4 s5 j5
  rw [SM.bind_ok h6]
  obtain ⟨s7, h7, j7, -, -⟩ := takes_readLE 2 s6 j6
  rw [SM.bind_ok h7]
  exact ⟨_, _, _, rfl⟩

theorem takes_read16 : Takes read16 2 (leHead 2) := takes_readLE 2
theorem takes_read32 : Takes read32 4 (leHead 4) := takes_readLE 4

theorem extraOk_drop (b : Bytes) (p xlen x : Nat) (fs : List Nat) :
    Spec.ExtraOk (b.drop p) xlen x fs ↔ Spec.ExtraOk b xlen (p + x) fs := by
  simp only [Spec.ExtraOk, leAt_drop, Nat.add_assoc]

/-- Outcome of a header: fine exactly if `ok`, otherwise an exception. -/
def Decides {α : Type} (ok : Prop) (x : Except Err α × IStream) : Prop :=
  (ok → ∃ e s', x = (.ok e, s')) ∧ (¬ok → ∃ w, x.1 = .error (.throw (.runtimeError w)))

theorem Decides.of_ok {α : Type} {ok : Prop} (h : ok) {e : α} {s : IStream} : Decides ok ((.ok e, s) : Except Err α × IStream) :=
  ⟨fun _ => ⟨_, _, rfl⟩, fun h' => absurd h h'⟩

/-- A central header at the place where the stream is: the outcome is decided by the bytes. -/
theorem readCentralHeader_fwd {s : IStream} {r : Bytes} (hat : s.At r) :
    (r.length < 4 → (readCentralHeader s).1 = .error .ub) ∧
    (4 ≤ r.length → Decides (Spec.CentralOk r 0) (readCentralHeader s)) := by
  obtain ⟨u1, u2, u3⟩ := assertSig_fwd (sig := CD_HEADER_SIG) hat
  unfold readCentralHeader
  refine ⟨fun h => ?_, fun h => ?_⟩
  · have := u1 h
    rw [SM.bind_apply]
    match hk : assertSig CD_HEADER_SIG s with
    | (.ok a, s') => rw [hk] at this; simp at this
    | (.error e, s') => rw [hk] at this; simpa using this
  by_cases hsig : r.take 4 = CD_HEADER_SIG
  swap
  · refine ⟨fun hok => absurd (by simpa [CD_HEADER_SIG] using hok.sig) hsig, fun _ => ?_⟩
    have := u2 h hsig
    rw [SM.bind_apply]
    match hk : assertSig CD_HEADER_SIG s with
    | (.ok a, s') => rw [hk] at this; simp at this
    | (.error e, s') => rw [hk] at this; exact ⟨_, by simpa using this⟩
  obtain ⟨s1, e1, j1, r1⟩ := u3 h hsig
  rw [SM.bind_ok e1]
  obtain ⟨s2, e2, j2, r2, -⟩ := takes_read16 s1 j1
  rw [SM.bind_ok e2]
  obtain ⟨s3, e3, j3, r3, -⟩ := takes_read16 s2 j2
  rw [SM.bind_ok e3]
  have q3 : s3.rest = r.drop 8 := by rw [r3, r2, r1, List.drop_drop, List.drop_drop]
  have hv : leHead 2 s2.rest = leAt r 6 2 := by rw [leHead_eq, r2, r1, List.drop_drop, leAt_drop]
  rw [hv]
  by_cases hver : leAt r 6 2 > ZIP64_VERSION
  · rw [if_pos hver]
    refine ⟨fun hok => ?_, fun _ => ⟨_, rfl⟩⟩
    have := hok.version
    simp only [Nat.zero_add] at this
    unfold ZIP64_VERSION at hver
    omega
  rw [if_neg hver]
  obtain ⟨e, n, s4, e4⟩ := readSharedHeader_fwd FileEntry.blank j3
  rw [SM.bind_ok e4]
  obtain ⟨j4, r4, -, f1, f2, f3, f4, f5⟩ := readSharedHeader_inv j3 e4
  rw [q3] at r4 f1 f2 f3 f4 f5
  rw [leAt_drop] at f1 f2 f3 f4 f5
  simp only []
  obtain ⟨s5, e5, j5, r5, -⟩ := takes_read16 s4 j4
  rw [SM.bind_ok e5]
  obtain ⟨s6, e6, j6, r6, -⟩ := takes_read16 s5 j5
  rw [SM.bind_ok e6]
  obtain ⟨s7, e7, j7, r7, -⟩ := takes_read16 s6 j6
  rw [SM.bind_ok e7]
  obtain ⟨s8, e8, j8, r8, -⟩ := takes_read16 s7 j7
  rw [SM.bind_ok e8]
  obtain ⟨s9, e9, j9, r9, -⟩ := takes_read32 s8 j8
  rw [SM.bind_ok e9]
  obtain ⟨s10, e10, j10, r10, -⟩ := takes_read32 s9 j9
  rw [SM.bind_ok e10]
  obtain ⟨s11, e11, j11, r11, -⟩ := takes_readName n s10 j10
  rw [SM.bind_ok e11]
  have q9 : s9.rest = r.drop 42 := by
    rw [r9, r8, r7, r6, r5, r4]; simp only [List.drop_drop]
  have q11 : s11.rest = r.drop (46 + n) := by
    rw [r11, r10, q9]; simp only [List.drop_drop]
  have fx : leHead 2 s4.rest = leAt r 30 2 := by rw [leHead_eq, r4, List.drop_drop, leAt_drop]
  have fo : leHead 4 s9.rest = leAt r 42 4 := by rw [leHead_eq, q9, leAt_drop]
  simp only [fx, fo]
  have iff : Spec.CentralOk r 0 ↔ Spec.ExtraOk s11.rest (leAt r 30 2) 0 [leAt r 24 4, leAt r 20 4, leAt r 42 4] := by
    rw [q11, extraOk_drop]
    constructor
    · intro hok
      have := hok.extra
      rw [f1]
      simpa using this
    · intro hx
      refine ⟨by simpa [CD_HEADER_SIG] using hsig, by unfold ZIP64_VERSION at hver; simp only [Nat.zero_add]; omega, ?_⟩
      rw [f1] at hx
      simpa using hx
  by_cases hx : leAt r 30 2 > 0
  · rw [if_pos hx]
    generalize hent : ({ e with filename := _, offset := _ } : FileEntry) = ent
    have hf : ent.fields true = [leAt r 24 4, leAt r 20 4, leAt r 42 4] := by
      rw [← hent]; simp [FileEntry.fields, f4, f5]
    have := readZip64Extra_fwd ent true j11 hx
    rw [hf, ← iff] at this
    exact this
  · rw [if_neg hx]
    exact Decides.of_ok (iff.2 (.inl (by omega)))

/-- A local header at the place where the stream is. -/
theorem readLocalHeader_fwd {s : IStream} {r : Bytes} (hat : s.At r) :
    (r.length < 4 → (readLocalHeader s).1 = .error .ub) ∧
    (4 ≤ r.length → Decides (Spec.LocalOk r 0) (readLocalHeader s)) := by
  obtain ⟨u1, u2, u3⟩ := assertSig_fwd (sig := LOCAL_HEADER_SIG) hat
  unfold readLocalHeader
  refine ⟨fun h => ?_, fun h => ?_⟩
  · have := u1 h
    rw [SM.bind_apply]
    match hk : assertSig LOCAL_HEADER_SIG s with
    | (.ok a, s') => rw [hk] at this; simp at this
    | (.error e, s') => rw [hk] at this; simpa using this
  by_cases hsig : r.take 4 = LOCAL_HEADER_SIG
  swap
  · refine ⟨fun hok => absurd (by simpa [LOCAL_HEADER_SIG] using hok.sig) hsig, fun _ => ?_⟩
    have := u2 h hsig
    rw [SM.bind_apply]
    match hk : assertSig LOCAL_HEADER_SIG s with
    | (.ok a, s') => rw [hk] at this; simp at this
    | (.error e, s') => rw [hk] at this; exact ⟨_, by simpa using this⟩
  obtain ⟨s1, e1, j1, r1⟩ := u3 h hsig
  rw [SM.bind_ok e1]
  obtain ⟨s3, e3, j3, r3, -⟩ := takes_read16 s1 j1
  rw [SM.bind_ok e3]
  have q3 : s3.rest = r.drop 6 := by rw [r3, r1, List.drop_drop]
  have hv : leHead 2 s1.rest = leAt r 4 2 := by rw [leHead_eq, r1, leAt_drop]
  rw [hv]
  by_cases hver : leAt r 4 2 > ZIP64_VERSION
  · rw [if_pos hver]
    refine ⟨fun hok => ?_, fun _ => ⟨_, rfl⟩⟩
    have := hok.version
    simp only [Nat.zero_add] at this
    unfold ZIP64_VERSION at hver
    omega
  rw [if_neg hver]
  obtain ⟨e, n, s4, e4⟩ := readSharedHeader_fwd FileEntry.blank j3
  rw [SM.bind_ok e4]
  obtain ⟨j4, r4, -, f1, f2, f3, f4, f5⟩ := readSharedHeader_inv j3 e4
  rw [q3] at r4 f1 f2 f3 f4 f5
  rw [leAt_drop] at f1 f2 f3 f4 f5
  simp only []
  obtain ⟨s5, e5, j5, r5, -⟩ := takes_read16 s4 j4
  rw [SM.bind_ok e5]
  obtain ⟨s11, e11, j11, r11, -⟩ := takes_readName n s5 j5
  rw [SM.bind_ok e11]
  have q11 : s11.rest = r.drop (30 + n) := by
    rw [r11, r5, r4]; simp only [List.drop_drop]
  have fx : leHead 2 s4.rest = leAt r 28 2 := by rw [leHead_eq, r4, List.drop_drop, leAt_drop]
  simp only [fx]
  have iff : Spec.LocalOk r 0 ↔ Spec.ExtraOk s11.rest (leAt r 28 2) 0 [leAt r 22 4, leAt r 18 4] := by
    rw [q11, extraOk_drop]
    constructor
    · intro hok
      have := hok.extra
      rw [f1]
      simpa using this
    · intro hx
      refine ⟨by simpa [LOCAL_HEADER_SIG] using hsig, by unfold ZIP64_VERSION at hver; simp only [Nat.zero_add]; omega, ?_⟩
      rw [f1] at hx
      simpa using hx
  by_cases hx : leAt r 28 2 > 0
  · rw [if_pos hx]
    generalize hent : ({ e with filename := _ } : FileEntry) = ent
    have hf : ent.fields false = [leAt r 22 4, leAt r 18 4] := by
      rw [← hent]; simp [FileEntry.fields, f4, f5]
    have := readZip64Extra_fwd ent false j11 hx
    rw [hf, ← iff] at this
    exact this
  · rw [if_neg hx]
    exact Decides.of_ok (iff.2 (.inl (by omega)))

/-- The name, and where the stream stands after a central header. -/
theorem readCentralHeader_at {s s' : IStream} {e : FileEntry} (h : readCentralHeader s = (.ok e, s')) (ht : s.Tail)
    (ho : s.isOpen = true) :
    e.filename = Spec.centralName s.rest 0 ∧ s'.At (s.rest.drop (Spec.centralSize s.rest 0)) := by
  have hopen : s'.isOpen = true := by
    have : Keeps readCentralHeader :=
      (keeps_assertSig _).bind fun _ => (keeps_readLE 2).bind fun _ => (keeps_readLE 2).bind fun _ => Keeps.ite (Keeps.fail _)
        ((keeps_readSharedHeader _).bind fun _ => (keeps_readLE 2).bind fun _ => (keeps_readLE 2).bind fun _ =>
          (keeps_readLE 2).bind fun _ => (keeps_readLE 2).bind fun _ => (keeps_readLE 4).bind fun _ => (keeps_readLE 4).bind fun _ =>
          (keeps_readName _).bind fun _ => Keeps.ite (keeps_readZip64Extra _ _) (Keeps.pure _))
    have := (this s).2.1
    rw [h] at this
    rw [← ho, ← this]
  unfold readCentralHeader at h
  obtain ⟨⟨⟩, s1, h1, h⟩ := SM.of_bind_ok h
  obtain ⟨g0, sg, j1, r1, a1⟩ := assertSig_inv h1
  obtain ⟨s2, j2, r2, a2, h⟩ := (takes_readLE 2).inv j1 h
  obtain ⟨s3, j3, r3, a3, h⟩ := (takes_readLE 2).inv j2 h
  split at h
  · simp at h
  rename_i hver
  obtain ⟨⟨e1, n⟩, s4, h3, h⟩ := SM.of_bind_ok h
  obtain ⟨j4, r4, a4, f1, f2, f3, f4, f5⟩ := readSharedHeader_inv j3 h3
  obtain ⟨s5, j5, r5, a5, h⟩ := (takes_readLE 2).inv j4 h
  obtain ⟨s6, j6, r6, a6, h⟩ := (takes_readLE 2).inv j5 h
  obtain ⟨s7, j7, r7, a7, h⟩ := (takes_readLE 2).inv j6 h
  obtain ⟨s8, j8, r8, a8, h⟩ := (takes_readLE 2).inv j7 h
  obtain ⟨s9, j9, r9, a9, h⟩ := (takes_readLE 4).inv j8 h
  obtain ⟨s10, j10, r10, a10, h⟩ := (takes_readLE 4).inv j9 h
  obtain ⟨s11, j11, r11, a11, h⟩ := (takes_readName n).inv j10 h
  have q3 : s3.rest = s.rest.drop 8 := by rw [r3, r2, r1, List.drop_drop, List.drop_drop]
  have q10 : s10.rest = s.rest.drop 46 := by
    rw [r10, r9, r8, r7, r6, r5, r4, q3]; simp only [List.drop_drop]
  have fx : leHead 2 s4.rest = leAt s.rest 30 2 := by rw [leHead_eq, r4, q3, List.drop_drop, leAt_drop]
  rw [q3, leAt_drop] at f1
  have ha : s11.all = s.all := by rw [a11, a10, a9, a8, a7, a6, a5, a4, a3, a2, a1]
  have q11 : s11.rest = s.rest.drop (46 + n) := by rw [r11, q10, List.drop_drop]
  have hname : s10.rest.take n ++ List.replicate (n - (s10.rest.take n).length) 0 = Spec.centralName s.rest 0 := by
    unfold Spec.centralName
    rw [q10, f1]
    simp only [Nat.zero_add]
    generalize leAt s.rest (8 + 20) 2 = m
    rw [show m - ((s.rest.drop 46).take m).length = m - (s.rest.length - 46) by
      rw [List.length_take, List.length_drop]; omega]
  split at h
  · rename_i hx
    obtain ⟨z1, -, -, -, -, -, z7⟩ := readZip64Extra_inv j11 hx h
    refine ⟨z1.trans hname, ?_⟩
    obtain ⟨p, hp⟩ := ht
    have := z7 ⟨p + (46 + n), by rw [q11, ha, hp, List.drop_drop]⟩ hopen
    rw [q11, List.drop_drop, leAt_drop] at this
    have hl : Spec.centralSize s.rest 0 = 46 + n + (4 + leAt s.rest (46 + n + 2) 2) := by
      unfold Spec.centralSize
      simp only [Nat.zero_add]
      rw [if_neg (by rw [fx] at hx; exact Nat.pos_iff_ne_zero.mp hx), f1, Nat.add_assoc]
    rwa [hl]
  · rename_i hx
    simp only [SM.pure_apply, Prod.mk.injEq, Except.ok.injEq] at h
    obtain ⟨rfl, rfl⟩ := h
    refine ⟨hname, ?_⟩
    have hl : Spec.centralSize s.rest 0 = 46 + n := by
      unfold Spec.centralSize
      simp only [Nat.zero_add]
      rw [if_pos (by rw [fx] at hx; omega), f1]
    rw [hl, ← q11]
    exact j11.at

theorem centralOk_drop (b : Bytes) (p : Nat) : Spec.CentralOk (b.drop p) 0 ↔ Spec.CentralOk b p := by
  constructor
  · rintro ⟨h1, h2, h3⟩
    rw [extraOk_drop] at h3
    simp only [leAt_drop, Nat.zero_add] at h2 h3
    exact ⟨by simpa using h1, h2, by rw [Nat.add_assoc]; exact h3⟩
  · rintro ⟨h1, h2, h3⟩
    refine ⟨by simpa using h1, by simpa only [leAt_drop, Nat.zero_add] using h2, ?_⟩
    rw [extraOk_drop]
    simp only [leAt_drop, Nat.zero_add]
    rw [Nat.add_assoc] at h3
    exact h3

theorem localOk_drop (b : Bytes) (p : Nat) : Spec.LocalOk (b.drop p) 0 ↔ Spec.LocalOk b p := by
  constructor
  · rintro ⟨h1, h2, h3⟩
    rw [extraOk_drop] at h3
    simp only [leAt_drop, Nat.zero_add] at h2 h3
    exact ⟨by simpa using h1, h2, by rw [Nat.add_assoc]; exact h3⟩
  · rintro ⟨h1, h2, h3⟩
    refine ⟨by simpa using h1, by simpa only [leAt_drop, Nat.zero_add] using h2, ?_⟩
    rw [extraOk_drop]
    simp only [leAt_drop, Nat.zero_add]
    rw [Nat.add_assoc] at h3
    exact h3

theorem centralSize_drop (b : Bytes) (p : Nat) : Spec.centralSize (b.drop p) 0 = Spec.centralSize b p := by
  unfold Spec.centralSize
  simp only [leAt_drop, Nat.zero_add, Nat.add_assoc]

theorem centralName_drop (b : Bytes) (p : Nat) : Spec.centralName (b.drop p) 0 = Spec.centralName b p := by
  unfold Spec.centralName
  simp only [leAt_drop, Nat.zero_add, List.drop_drop, List.length_drop]
  congr 2

/-- The stream of an archive in which a part is to be read next. -/
structure IStream.In (s : IStream) (b : Bytes) (p : Nat) : Prop where
  at_ : s.At (b.drop p)
  tail : s.Tail
  isOpen : s.isOpen = true
  all : s.all = b

theorem keeps_readCentralHeader : Keeps readCentralHeader :=
  (keeps_assertSig _).bind fun _ => (keeps_readLE 2).bind fun _ => (keeps_readLE 2).bind fun _ => Keeps.ite (Keeps.fail _)
    ((keeps_readSharedHeader _).bind fun _ => (keeps_readLE 2).bind fun _ => (keeps_readLE 2).bind fun _ =>
      (keeps_readLE 2).bind fun _ => (keeps_readLE 2).bind fun _ => (keeps_readLE 4).bind fun _ => (keeps_readLE 4).bind fun _ =>
      (keeps_readName _).bind fun _ => Keeps.ite (keeps_readZip64Extra _ _) (Keeps.pure _))

theorem central_step {s : IStream} {b : Bytes} {p : Nat} (hin : s.In b p) :
    (b.length < p + 4 → (readCentralHeader s).1 = .error .ub) ∧
    (p + 4 ≤ b.length → ¬Spec.CentralOk b p → ∃ w, (readCentralHeader s).1 = .error (.throw (.runtimeError w))) ∧
    (Spec.CentralOk b p → ∃ e s', readCentralHeader s = (.ok e, s') ∧ e.filename = Spec.centralName b p ∧
      s'.In b (p + Spec.centralSize b p)) := by
  obtain ⟨u1, u2⟩ := readCentralHeader_fwd hin.at_
  rw [List.length_drop] at u1 u2
  rw [centralOk_drop] at u2
  refine ⟨fun h => u1 (by omega), fun h hn => (u2 (by omega)).2 hn, fun hok => ?_⟩
  have hlen : 4 ≤ b.length - p := by
    have := congrArg List.length hok.sig
    rw [List.length_take, List.length_drop] at this
    simp only [List.length_cons, List.length_nil] at this
    omega
  obtain ⟨e, s', h⟩ := (u2 hlen).1 hok
  have hr : s.rest = b.drop p := by
    rcases hin.at_ with ⟨-, h'⟩ | ⟨-, h'⟩
    · exact h'
    · have := congrArg List.length h'
      rw [List.length_drop, List.length_nil] at this
      omega
  obtain ⟨v1, v2⟩ := readCentralHeader_at h hin.tail hin.isOpen
  rw [hr, centralName_drop] at v1
  rw [hr, centralSize_drop, List.drop_drop] at v2
  have k := keeps_readCentralHeader s
  have t := tail_readCentralHeader s hin.tail
  rw [h] at k t
  exact ⟨e, s', h, v1, v2, t, by rw [← hin.isOpen]; exact k.2.1, by rw [← hin.all]; exact k.1⟩

/-- The entry is what the header at `p` says. -/
def EntryAt (b : Bytes) (p : Nat) (e : FileEntry) : Prop :=
  e.filename = Spec.centralName b p ∧ e.offset < 2 ^ 64 ∧
    Spec.CentralAt b p e.filename e.compressionMethod e.crc32 e.compressedSize e.uncompressedSize e.offset

theorem central_entry {s s' : IStream} {b : Bytes} {p : Nat} {e : FileEntry} (hin : s.In b p) (hok : Spec.CentralOk b p)
    (h : readCentralHeader s = (.ok e, s')) (hn : e.filename = Spec.centralName b p) : EntryAt b p e := by
  obtain ⟨g1, g2, g3, g4⟩ := readCentralHeader_inv h
  have hr : s.rest = b.drop p := by
    rcases hin.at_ with ⟨-, h'⟩ | ⟨h', -⟩
    · exact h'
    · rw [g1] at h'; simp at h'
  rw [hr] at g2
  exact ⟨hn, g3, centralAt_drop g2⟩

/-- The loop over the directory, from header `j` on. -/
theorem readEntriesLoop_fwd (b : Bytes) (n j : Nat) {m : EntryMap} {ks : List Bytes} {s : IStream} (hin : s.In b (Spec.dirPos b j)) :
    ((∀ k, j ≤ k → k < j + n → Spec.CentralOk b (Spec.dirPos b k)) → ∃ (f : Nat → FileEntry) (s' : IStream), readEntriesLoop n m ks s =
      (.ok (((List.range' j n).map fun k => (Spec.centralName b (Spec.dirPos b k), f k)).reverse ++ m,
        ks ++ (List.range' j n).map fun k => Spec.centralName b (Spec.dirPos b k)), s') ∧
      (∀ k, j ≤ k → k < j + n → EntryAt b (Spec.dirPos b k) (f k)) ∧ s'.In b (Spec.dirPos b (j + n))) ∧
    (∀ k, j ≤ k → k < j + n → (∀ i, j ≤ i → i < k → Spec.CentralOk b (Spec.dirPos b i)) →
      (b.length < Spec.dirPos b k + 4 → (readEntriesLoop n m ks s).1 = .error .ub) ∧
      (Spec.dirPos b k + 4 ≤ b.length → ¬Spec.CentralOk b (Spec.dirPos b k) →
        ∃ w, (readEntriesLoop n m ks s).1 = .error (.throw (.runtimeError w)))) := by
  induction n generalizing j m ks s with
  | zero =>
    exact ⟨fun _ => ⟨fun _ => FileEntry.blank, s, by simp [readEntriesLoop], fun k h1 h2 => by omega, hin⟩, fun k h1 h2 => by omega⟩
  | succ n ih =>
    obtain ⟨c1, c2, c3⟩ := central_step hin
    refine ⟨fun hall => ?_, fun k h1 h2 hbefore => ?_⟩
    · have hok := hall j (by omega) (by omega)
      obtain ⟨e, s1, h1, h2, h3⟩ := c3 hok
      obtain ⟨i1, -⟩ := ih (j + 1) (m := (e.filename, e) :: m) (ks := ks ++ [e.filename]) (s := s1) h3
      obtain ⟨f, s', g, g2, g3⟩ := i1 (fun k hk hk' => hall k (by omega) (by omega))
      refine ⟨fun k => if k = j then e else f k, s', ?_, fun k hk hk' => ?_, by rw [show j + (n + 1) = j + 1 + n by omega]; exact g3⟩
      · rw [readEntriesLoop, SM.bind_ok h1, g, List.range'_succ, List.map_cons, List.map_cons, h2]
        simp only [List.reverse_cons, List.append_assoc, List.singleton_append, if_true, Prod.mk.injEq, and_true, Except.ok.injEq]
        congr 2
        apply List.map_congr_left
        intro k hk
        rw [List.mem_range'_1] at hk
        rw [if_neg (by omega)]
      · by_cases hkj : k = j
        · show EntryAt b _ (if k = j then e else f k)
          rw [if_pos hkj, hkj]
          exact central_entry hin hok h1 h2
        · show EntryAt b _ (if k = j then e else f k)
          rw [if_neg hkj]
          exact g2 k (by omega) (by omega)
    · by_cases hjk : k = j
      · subst hjk
        rw [readEntriesLoop, SM.bind_apply]
        refine ⟨fun hl => ?_, fun hl hn => ?_⟩
        · have := c1 hl
          match hk : readCentralHeader s with
          | (.ok a, s') => rw [hk] at this; simp at this
          | (.error e, s') => rw [hk] at this; simpa using this
        · obtain ⟨w, this⟩ := c2 hl hn
          match hk : readCentralHeader s with
          | (.ok a, s') => rw [hk] at this; simp at this
          | (.error e, s') => rw [hk] at this; exact ⟨w, by simpa using this⟩
      · obtain ⟨e, s1, g1, g2, g3⟩ := c3 (hbefore j (by omega) (by omega))
        obtain ⟨-, i2⟩ := ih (j + 1) (m := (e.filename, e) :: m) (ks := ks ++ [e.filename]) (s := s1) g3
        rw [readEntriesLoop, SM.bind_ok g1]
        exact i2 k (by omega) (by omega) (fun i hi hi' => hbefore i (by omega) hi')

/-- Going to the directory. -/
theorem readEntries_start {b : Bytes} {s : IStream} (hs : s = IStream.ofBytes b ∨ s = IStream.ofFile b) (hlen : 22 ≤ b.length)
    (hsig : (b.drop (b.length - 22)).take 4 = [0x50, 0x4B, 5, 6]) :
    ∃ s', s'.In b (Spec.dirPos b 0) ∧
      readEntries s = (readEntriesLoop (Spec.dirCount b) [] [] >>= fun x => pure (x.1, sortKeys x.2)) s' := by
  obtain ⟨s0, k1, k2, k3, k4, k5⟩ : ∃ s', IStream.seekgEnd (-22) s = (.ok (), s') ∧ s'.good = true ∧
      s'.rest = b.drop (b.length - 22) ∧ s'.all = b ∧ s'.isOpen = true := by
    have e1 : ((b.length : Int) + -22).toNat = b.length - 22 := by omega
    rcases hs with rfl | rfl
    · refine ⟨{ IStream.ofBytes b with rest := b.drop (b.length - 22) }, ?_, rfl, rfl, rfl, rfl⟩
      simp [IStream.seekgEnd, IStream.seekg, IStream.ofBytes, e1]
      intro; omega
    · refine ⟨{ IStream.ofFile b with rest := b.drop (b.length - 22) }, ?_, rfl, rfl, rfl, rfl⟩
      simp [IStream.seekgEnd, IStream.seekg, IStream.ofFile, e1]
      intro; omega
  have kf : s0.fail = false := by
    simp only [IStream.good, Bool.and_eq_true, Bool.not_eq_true'] at k2; exact k2.2
  have hend : ∃ s1 d, readEndOfCentralDirectory s0 = (.ok d, s1) ∧ s1.fail = false ∧ s1.all = b ∧ s1.isOpen = true ∧ s1.Tail ∧
      d.numEntries = Spec.dirCount b ∧ d.offset = Spec.dirPos b 0 := by
    have kk : Keeps readEndOfCentralDirectory :=
      (keeps_assertSig _).bind fun _ => (keeps_readLE 2).bind fun _ => (keeps_readLE 2).bind fun _ => (keeps_readLE 2).bind fun _ =>
        (keeps_readLE 2).bind fun _ => (keeps_readLE 4).bind fun _ => (keeps_readLE 4).bind fun _ => Keeps.pure _
    have kk := kk s0
    unfold readEndOfCentralDirectory at kk ⊢
    obtain ⟨-, -, u3⟩ := assertSig_fwd (sig := CD_END_SIG) (s := s0) (.inl ⟨k2, k3⟩)
    obtain ⟨s1, e1, j1, r1⟩ := u3 (by rw [List.length_drop]; omega) hsig
    rw [SM.bind_ok e1] at kk ⊢
    obtain ⟨s2, e2, j2, r2, -⟩ := takes_read16 s1 j1
    rw [SM.bind_ok e2] at kk ⊢
    obtain ⟨s3, e3, j3, r3, -⟩ := takes_read16 s2 j2
    rw [SM.bind_ok e3] at kk ⊢
    obtain ⟨s4, e4, j4, r4, -⟩ := takes_read16 s3 j3
    rw [SM.bind_ok e4] at kk ⊢
    obtain ⟨s5, e5, j5, r5, -⟩ := takes_read16 s4 j4
    rw [SM.bind_ok e5] at kk ⊢
    obtain ⟨s6, e6, j6, r6, -⟩ := takes_read32 s5 j5
    rw [SM.bind_ok e6] at kk ⊢
    obtain ⟨s7, e7, j7, r7, -⟩ := takes_read32 s6 j6
    rw [SM.bind_ok e7] at kk ⊢
    have q3 : s3.rest = b.drop (b.length - 22 + 8) := by rw [r3, r2, r1]; simp only [List.drop_drop]
    have q6 : s6.rest = b.drop (b.length - 22 + 16) := by rw [r6, r5, r4, q3]; simp only [List.drop_drop]
    have q7 : s7.rest = b.drop (b.length - 22 + 20) := by rw [r7, q6]; simp only [List.drop_drop]
    refine ⟨s7, _, rfl, ?_, by rw [← k4]; exact kk.1, by rw [← k5]; exact kk.2.1,
      ⟨_, by rw [q7, show s7.all = b from kk.1.trans k4]⟩, ?_, ?_⟩
    · rcases j7 with j | j
      · simp only [IStream.good, Bool.and_eq_true, Bool.not_eq_true'] at j; exact j.2
      · rw [q7] at j
        have := congrArg List.length j
        rw [List.length_drop, List.length_nil] at this
        omega
    · show leHead 2 s3.rest = _
      rw [leHead_eq, q3, leAt_drop]; rfl
    · show leHead 4 s6.rest = _
      rw [leHead_eq, q6, leAt_drop]; rfl
  obtain ⟨s1, d, e1, d1, d2, d3, dt, d4, d5⟩ := hend
  have hlt : d.offset < 2 ^ 32 := by
    rw [d5]
    show leAt b _ 4 < _
    rw [← Nat.add_zero (b.length - 22 + 16), ← leAt_drop, ← leHead_eq]
    exact leHead_lt 4 _
  have hso : toStreamoff d.offset = (d.offset : Int) := by
    unfold toStreamoff
    rw [if_pos (by omega)]
  unfold readEntries
  rw [SM.bind_ok (show IStream.seekgEnd (-(CD_END_SIZE : Int)) s = _ from k1), SM.bind_ok e1, hso]
  have hseek : ∃ s2, IStream.seekg (d.offset : Int) s1 = (.ok (), s2) ∧ s2.In b (Spec.dirPos b 0) := by
    simp only [IStream.seekg, d1, d3, Bool.false_eq_true, if_false]
    rw [if_neg (by simp)]
    by_cases hc : (s1.isFile || decide ((d.offset : Int).toNat ≤ s1.all.length)) = true
    · rw [if_pos hc]
      refine ⟨_, rfl, .inl ⟨by simp [IStream.good], ?_⟩, ⟨_, rfl⟩, rfl, d2⟩
      simp only [Int.toNat_natCast, d2, d5]
    · rw [if_neg hc]
      simp only [Bool.or_eq_true, decide_eq_true_eq, not_or, Int.toNat_natCast, d2, d5] at hc
      refine ⟨_, rfl, .inr ⟨by simp [IStream.good, IStream.setFail], List.drop_of_length_le (by omega)⟩, ?_, rfl, d2⟩
      exact dt
  obtain ⟨s2, e2, hin⟩ := hseek
  rw [SM.bind_ok e2, d4]
  exact ⟨s2, hin, rfl⟩

theorem lookup_named (l : List Nat) (N : Nat → Bytes) (f : Nat → FileEntry) (name : Bytes) :
    (l.map fun k => (N k, f k)).lookup name = (l.find? fun k => N k = name).map f := by
  induction l with
  | nil => rfl
  | cons x l ih =>
    rw [List.map_cons, List.lookup_cons, List.find?_cons, ih]
    by_cases h : name = N x
    · simp [h]
    · have : (name == N x) = false := by simpa using h
      rw [this]
      have : decide (N x = name) = false := by simpa using fun h' => h h'.symm
      rw [this]

/-- Opening, when every header of the directory can be read. -/
theorem open_ok {b : Bytes} {s : IStream} (hs : s = IStream.ofBytes b ∨ s = IStream.ofFile b) (hlen : 22 ≤ b.length)
    (hsig : (b.drop (b.length - 22)).take 4 = [0x50, 0x4B, 5, 6])
    (hall : ∀ k < Spec.dirCount b, Spec.CentralOk b (Spec.dirPos b k)) :
    ∃ r f, Reader.open s = .ok r ∧
      r.keys = sortKeys ((List.range (Spec.dirCount b)).map fun k => Spec.centralName b (Spec.dirPos b k)) ∧
      (∀ name, r.entries.lookup name = (Spec.dirFind b name).map f) ∧
      (∀ k < Spec.dirCount b, EntryAt b (Spec.dirPos b k) (f k)) ∧ r.input.In b (Spec.dirPos b (Spec.dirCount b)) := by
  obtain ⟨s1, hin, he⟩ := readEntries_start hs hlen hsig
  obtain ⟨h1, -⟩ := readEntriesLoop_fwd b (Spec.dirCount b) 0 (m := []) (ks := []) hin
  obtain ⟨f, s2, g1, g2, g3⟩ := h1 (fun k _ hk => hall k (by omega))
  rw [SM.bind_ok g1] at he
  have ho : s.isOpen = true := by rcases hs with rfl | rfl <;> rfl
  refine ⟨⟨s2, ((List.range (Spec.dirCount b)).map fun k => (Spec.centralName b (Spec.dirPos b k), f k)).reverse,
      sortKeys ((List.range (Spec.dirCount b)).map fun k => Spec.centralName b (Spec.dirPos b k))⟩, f, ?_, rfl, fun name => ?_, fun k hk => g2 k (by omega) (by omega), by rwa [Nat.zero_add] at g3⟩
  · unfold Reader.open
    rw [if_neg (by simp [ho]), he]
    simp only [List.nil_append, List.append_nil, ← List.range_eq_range', SM.pure_apply]
  · simp only []
    rw [← List.map_reverse, lookup_named]
    rfl

/-- Opening, when header `k` is the first that cannot be read. -/
theorem open_bad {b : Bytes} {s : IStream} (hs : s = IStream.ofBytes b ∨ s = IStream.ofFile b) (hlen : 22 ≤ b.length)
    (hsig : (b.drop (b.length - 22)).take 4 = [0x50, 0x4B, 5, 6]) {k : Nat} (hk : k < Spec.dirCount b)
    (hbefore : ∀ i < k, Spec.CentralOk b (Spec.dirPos b i)) :
    (b.length < Spec.dirPos b k + 4 → Reader.open s = .error .ub) ∧
    (Spec.dirPos b k + 4 ≤ b.length → ¬Spec.CentralOk b (Spec.dirPos b k) →
      ∃ w, Reader.open s = .error (.throw (.runtimeError w))) := by
  obtain ⟨s1, hin, he⟩ := readEntries_start hs hlen hsig
  obtain ⟨-, h2⟩ := readEntriesLoop_fwd b (Spec.dirCount b) 0 (m := []) (ks := []) hin
  obtain ⟨a1, a2⟩ := h2 k (by omega) (by omega) (fun i _ hi => hbefore i hi)
  have ho : s.isOpen = true := by rcases hs with rfl | rfl <;> rfl
  have key : ∀ e, (readEntriesLoop (Spec.dirCount b) [] [] s1).1 = .error e → Reader.open s = .error e := by
    intro e h
    unfold Reader.open
    rw [if_neg (by simp [ho]), he, SM.bind_apply]
    match hr : readEntriesLoop (Spec.dirCount b) [] [] s1 with
    | (.ok x, s') => rw [hr] at h; simp at h
    | (.error e', s') =>
      rw [hr] at h
      simp only [Except.error.injEq] at h
      subst h
      rfl
  refine ⟨fun h => key _ (a1 h), fun h hn => ?_⟩
  obtain ⟨w, hw⟩ := a2 h hn
  exact ⟨w, key _ hw⟩

/-- The name in a local header. -/
theorem readLocalHeader_name {s s' : IStream} {e : FileEntry} (h : readLocalHeader s = (.ok e, s')) :
    e.filename = Spec.localName s.rest 0 := by
  unfold readLocalHeader at h
  obtain ⟨⟨⟩, s1, h1, h⟩ := SM.of_bind_ok h
  obtain ⟨g0, sg, j1, r1, a1⟩ := assertSig_inv h1
  obtain ⟨s2, j2, r2, a2, h⟩ := (takes_readLE 2).inv j1 h
  split at h
  · simp at h
  obtain ⟨⟨e1, n⟩, s3, h3, h⟩ := SM.of_bind_ok h
  obtain ⟨j3, r3, a3, f1, f2, f3, f4, f5⟩ := readSharedHeader_inv j2 h3
  obtain ⟨s4, j4, r4, a4, h⟩ := (takes_readLE 2).inv j3 h
  obtain ⟨s5, j5, r5, a5, h⟩ := (takes_readName n).inv j4 h
  have q2 : s2.rest = s.rest.drop 6 := by rw [r2, r1, List.drop_drop]
  have q4 : s4.rest = s.rest.drop 30 := by rw [r4, r3, q2, List.drop_drop, List.drop_drop]
  rw [q2, leAt_drop] at f1
  have hname : s4.rest.take n ++ List.replicate (n - (s4.rest.take n).length) 0 = Spec.localName s.rest 0 := by
    unfold Spec.localName
    rw [q4, f1]
    simp only [Nat.zero_add]
    generalize leAt s.rest (6 + 20) 2 = m
    rw [show m - ((s.rest.drop 30).take m).length = m - (s.rest.length - 30) by
      rw [List.length_take, List.length_drop]; omega]
  split at h
  · rename_i hx
    obtain ⟨z1, -⟩ := readZip64Extra_inv j5 hx h
    exact z1.trans hname
  · simp only [SM.pure_apply, Prod.mk.injEq, Except.ok.injEq] at h
    obtain ⟨rfl, rfl⟩ := h
    exact hname

theorem localName_drop (b : Bytes) (p : Nat) : Spec.localName (b.drop p) 0 = Spec.localName b p := by
  unfold Spec.localName
  simp only [leAt_drop, Nat.zero_add, List.drop_drop, List.length_drop]
  congr 2

theorem localName_length (b : Bytes) (p : Nat) : (Spec.localName b p).length = leAt b (p + 26) 2 := by
  unfold Spec.localName
  rw [List.length_append, List.length_replicate, List.length_take, List.length_drop]
  omega

/-- A local header says one thing. -/
theorem localAt_unique {b : Bytes} {p : Nat} {n n' : Bytes} {m c cs us m' c' cs' us' : Nat} (h : Spec.LocalAt b p n m c cs us)
    (h' : Spec.LocalAt b p n' m' c' cs' us') : m = m' ∧ c = c' ∧ cs = cs' ∧ us = us' := by
  have hn : n.length = n'.length := by rw [← h.nameLength, ← h'.nameLength]
  have hv := h.values
  have hv' := h'.values
  rw [hn] at hv
  have : [us, cs] = [us', cs'] := by
    unfold Spec.HeaderValues at hv hv'
    split at hv
    · rename_i hx
      rw [if_pos hx] at hv'
      exact hv.trans hv'.symm
    · rename_i hx
      rw [if_neg hx] at hv'
      exact hv.2.2.trans hv'.2.2.symm
  simp only [List.cons.injEq, and_true] at this
  exact ⟨h.method.symm.trans h'.method, h.crc.symm.trans h'.crc, this.2, this.1⟩

theorem localAt_ok {b : Bytes} {p : Nat} {n : Bytes} {m c cs us : Nat} (h : Spec.LocalAt b p n m c cs us) : Spec.LocalOk b p := by
  refine ⟨h.sig, h.version, ?_⟩
  have hv := h.values
  unfold Spec.HeaderValues at hv
  rw [h.nameLength]
  split at hv
  · rename_i hx; exact .inl hx
  · exact .inr ⟨hv.1, hv.2.1⟩

/-- The outcome of reading an entry, from where it stands in the directory. -/
theorem readFile_outcome (codec : Codec) {b : Bytes} {s : IStream} {entries : EntryMap} {name stored : Bytes} {entry : FileEntry}
    (hs : s.all = b) (ho : s.isOpen = true) (hf : s.fail = false) (ht : s.Tail) (hlen : b.length < 2 ^ 63)
    (hres : resolveName entries name = .ok stored) (hlook : entries.lookup stored = some entry) (hn : entry.filename = stored)
    (hoff : entry.offset < 2 ^ 64) :
    (b.length < entry.offset + 4 → (Npy.readFile codec entries name s).1 = .error .ub) ∧
    (entry.offset + 4 ≤ b.length → ¬Spec.LocalOk b entry.offset →
      ∃ w, (Npy.readFile codec entries name s).1 = .error (.throw (.runtimeError w))) ∧
    (Spec.LocalOk b entry.offset →
      ¬(Spec.LocalAt b entry.offset stored entry.compressionMethod entry.crc32 entry.compressedSize entry.uncompressedSize ∧
        Spec.localName b entry.offset = stored) →
      (Npy.readFile codec entries name s).1 = .error (.throw (.runtimeError .headersDisagree))) ∧
    (Spec.LocalAt b entry.offset stored entry.compressionMethod entry.crc32 entry.compressedSize entry.uncompressedSize →
      Spec.localName b entry.offset = stored →
      (entry.compressedSize > 2 ^ 63 - 2 → (Npy.readFile codec entries name s).1 = .error (.throw (.lengthError .std))) ∧
      (entry.compressedSize ≤ 2 ^ 63 - 2 → (Npy.readFile codec entries name s).1 =
        match (if entry.compressionMethod = 8 then codec.inflate (Spec.entryData b entry.offset entry.compressedSize)
          else .ok (Spec.entryData b entry.offset entry.compressedSize)) with
        | .error e => .error e
        | .ok bytes => if npyCrc32 bytes = entry.crc32 then .ok bytes else .error (.throw (.runtimeError .crcMismatch)))) := by
  -- the stream at the local header
  have hseek : ∃ s1, IStream.seekg (toStreamoff entry.offset) s = (.ok (), s1) ∧ s1.In b entry.offset := by
    have hk := keeps_seekg (toStreamoff entry.offset) s
    have htl := tail_seekg (toStreamoff entry.offset) s ht
    simp only [IStream.seekg, hf, ho, Bool.false_eq_true, if_false] at hk htl ⊢
    unfold toStreamoff at hk htl ⊢
    by_cases hbig : entry.offset < 2 ^ 63
    · rw [if_pos hbig] at hk htl ⊢
      rw [if_neg (by simp)] at hk htl ⊢
      by_cases hc : (s.isFile || decide ((entry.offset : Int).toNat ≤ s.all.length)) = true
      · rw [if_pos hc] at hk htl ⊢
        refine ⟨_, rfl, .inl ⟨by simp [IStream.good], ?_⟩, htl, rfl, hs⟩
        simp only [Int.toNat_natCast, hs]
      · rw [if_neg hc] at hk htl ⊢
        simp only [Bool.or_eq_true, decide_eq_true_eq, not_or, Int.toNat_natCast, hs] at hc
        exact ⟨_, rfl, .inr ⟨by simp [IStream.good, IStream.setFail], List.drop_of_length_le (by omega)⟩, htl, rfl, hs⟩
    · rw [if_neg hbig] at hk htl ⊢
      have hneg : ((entry.offset : Int) - 2 ^ 64 < 0) := by omega
      rw [if_pos (by simpa using hneg)] at hk htl ⊢
      exact ⟨_, rfl, .inr ⟨by simp [IStream.good, IStream.setFail], List.drop_of_length_le (by omega)⟩, htl, rfl, hs⟩
  obtain ⟨s1, hsk, hin⟩ := hseek
  have hunf : Npy.readFile codec entries name s = (do
      let loc ← readLocalHeader
      if entry.check loc = false then SM.fail (.throw (.runtimeError .headersDisagree))
      else do
        let raw ← readPayload entry.compressedSize
        let bytes ← SM.lift (if entry.compressionMethod = DEFLATED then codec.inflate raw else .ok raw)
        if npyCrc32 bytes ≠ entry.crc32 then SM.fail (.throw (.runtimeError .crcMismatch))
        else pure bytes : IM Bytes) s1 := by
    unfold Npy.readFile
    rw [SM.bind_ok (show SM.lift (resolveName entries name) s = _ by rw [SM.lift_apply, hres]), hlook]
    simp only []
    rw [SM.bind_ok hsk]
  rw [hunf]
  obtain ⟨u1, u2⟩ := readLocalHeader_fwd hin.at_
  rw [List.length_drop] at u1 u2
  rw [localOk_drop] at u2
  have herr : ∀ e, (readLocalHeader s1).1 = .error e → ∀ g : FileEntry → IM Bytes, ((readLocalHeader >>= g) s1).1 = .error e := by
    intro e h g
    rw [SM.bind_apply]
    match hr : readLocalHeader s1 with
    | (.ok x, s') => rw [hr] at h; simp at h
    | (.error e', s') => rw [hr] at h; simpa using h
  have hgood : Spec.LocalOk b entry.offset → ∃ loc s2, readLocalHeader s1 = (.ok loc, s2) ∧
      Spec.LocalAt b entry.offset loc.filename loc.compressionMethod loc.crc32 loc.compressedSize loc.uncompressedSize ∧
      loc.filename = Spec.localName b entry.offset ∧ s2.At (b.drop (entry.offset + Spec.localSize b entry.offset)) := by
    intro hok
    have hl4 : 4 ≤ b.length - entry.offset := by
      have := congrArg List.length hok.sig
      rw [List.length_take, List.length_drop] at this
      simp only [List.length_cons, List.length_nil] at this
      omega
    obtain ⟨loc, s2, hr⟩ := (u2 hl4).1 hok
    obtain ⟨g1, g2, g3, g4⟩ := readLocalHeader_inv hr
    have hrest : s1.rest = b.drop entry.offset := by
      rcases hin.at_ with ⟨-, h'⟩ | ⟨h', -⟩
      · exact h'
      · rw [g1] at h'; simp at h'
    have hname := readLocalHeader_name hr
    rw [hrest] at g2 g4 hname
    rw [localName_drop] at hname
    rw [localSize_drop, List.drop_drop] at g4
    have hk := (keeps_readLocalHeader s1).2.1
    rw [hr] at hk
    exact ⟨loc, s2, hr, localAt_drop g2, hname, g4 hin.tail (hk.trans hin.isOpen)⟩
  have hcheck : ∀ loc : FileEntry, loc.filename = Spec.localName b entry.offset →
      Spec.LocalAt b entry.offset loc.filename loc.compressionMethod loc.crc32 loc.compressedSize loc.uncompressedSize →
      (entry.check loc = true ↔ Spec.LocalAt b entry.offset stored entry.compressionMethod entry.crc32 entry.compressedSize entry.uncompressedSize ∧
        Spec.localName b entry.offset = stored) := by
    intro loc hl hat
    unfold FileEntry.check
    simp only [Bool.not_eq_true', Bool.or_eq_false_iff, bne_eq_false_iff_eq]
    constructor
    · rintro ⟨⟨⟨⟨c1, c2⟩, c3⟩, c4⟩, c5⟩
      rw [c1, c2, c3, c4, c5, hn] at hat
      exact ⟨hat, by rw [← hl, c1, hn]⟩
    · rintro ⟨h1, h2⟩
      obtain ⟨m1, m2, m3, m4⟩ := localAt_unique hat h1
      exact ⟨⟨⟨⟨by rw [hl, h2, hn], m2⟩, m1⟩, m3⟩, m4⟩
  refine ⟨fun h => herr _ (u1 (by omega)) _, fun h hnok => ?_, fun hok hdis => ?_, fun hat hname => ?_⟩
  · obtain ⟨w, hw⟩ := (u2 (by omega)).2 hnok
    exact ⟨w, herr _ hw _⟩
  · obtain ⟨loc, s2, hr, h1, h2, h3⟩ := hgood hok
    rw [SM.bind_ok hr]
    have : entry.check loc = false := by
      cases hc : entry.check loc
      · rfl
      · exact absurd ((hcheck loc h2 h1).1 hc) hdis
    rw [if_pos this]
    rfl
  · obtain ⟨loc, s2, hr, h1, h2, h3⟩ := hgood (localAt_ok hat)
    rw [SM.bind_ok hr]
    have hc := (hcheck loc h2 h1).2 ⟨hat, hname⟩
    rw [if_neg (by rw [hc]; simp)]
    refine ⟨fun hbig => ?_, fun hsmall => ?_⟩
    · rw [SM.bind_apply]
      unfold readPayload
      rw [if_pos (by unfold STRING_MAX; exact hbig)]
      rfl
    · have hp : ∃ s3, readPayload entry.compressedSize s2 = (.ok (Spec.entryData b entry.offset entry.compressedSize), s3) := by
        have : ∃ raw s3, readPayload entry.compressedSize s2 = (.ok raw, s3) := by
          unfold readPayload
          rw [if_neg (by unfold STRING_MAX; omega)]
          have hrd : ∃ x s3, IStream.read entry.compressedSize s2 = (.ok x, s3) := by
            simp only [IStream.read]
            split
            · split <;> exact ⟨_, _, rfl⟩
            · exact ⟨_, _, rfl⟩
          obtain ⟨x, s3, hrd⟩ := hrd
          rw [SM.bind_ok hrd]
          exact ⟨_, _, rfl⟩
        obtain ⟨raw, s3, hraw⟩ := this
        have hr2 := readPayload_at h3 hraw
        refine ⟨s3, ?_⟩
        rw [hraw, hr2]
        unfold Spec.entryData
        rw [List.length_drop]
      obtain ⟨s3, hp⟩ := hp
      rw [SM.bind_ok hp, SM.bind_apply, SM.lift_apply]
      unfold DEFLATED
      match (if entry.compressionMethod = 8 then codec.inflate (Spec.entryData b entry.offset entry.compressedSize)
          else .ok (Spec.entryData b entry.offset entry.compressedSize)) with
      | .error e => rfl
      | .ok bytes =>
        simp only []
        by_cases hcrc : npyCrc32 bytes = entry.crc32
        · rw [if_neg (by simpa using hcrc), if_pos hcrc]; rfl
        · rw [if_pos hcrc, if_neg hcrc]; rfl

end Npy
