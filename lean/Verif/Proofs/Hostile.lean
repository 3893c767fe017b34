import Verif.Proofs.Archive
import Verif.Spec.Zip
/-! Reading arbitrary bytes as an archive. -/

namespace Npy
open Spec (leAt)

/-- A stream that is good, or failed at its end. -/
def IStream.J (s : IStream) : Prop := s.good = true ∨ s.rest = []

/-- The rest is the bytes from a position on. -/
def IStream.Tail (s : IStream) : Prop := ∃ p, s.rest = s.all.drop p

/-- `r` is to be read next; a stream that is not good has nothing to read. -/
def IStream.At (s : IStream) (r : Bytes) : Prop := s.good = true ∧ s.rest = r ∨ s.good = false ∧ r = []

theorem IStream.J.at {s : IStream} (h : s.J) : s.At s.rest := by
  by_cases hg : s.good = true
  · exact .inl ⟨hg, rfl⟩
  · exact .inr ⟨by simpa using hg, h.resolve_left hg⟩

/-- Moving ahead. -/
theorem seekgCur_at {s s' : IStream} {n : Nat} (h : IStream.seekgCur n s = (.ok (), s')) (hj : s.J) (ht : s.Tail)
    (ho : s'.isOpen = true) : s'.At (s.rest.drop n) := by
  obtain ⟨p, hp⟩ := ht
  have hpos : ∀ m, s.all.drop (s.pos + m) = s.rest.drop m := by
    intro m
    have h1 : s.rest.length = s.all.length - p := by rw [hp, List.length_drop]
    unfold IStream.pos
    rcases Nat.lt_or_ge p s.all.length with hlt | hge
    · rw [h1, hp, List.drop_drop]
      congr 1
      omega
    · rw [List.drop_of_length_le (by omega), List.drop_of_length_le (by omega)]
  have hc : ((s.pos : Int) + (n : Int)) = ((s.pos + n : Nat) : Int) := by omega
  simp only [IStream.seekgCur, IStream.seekg] at h
  rw [hc] at h
  split at h
  · rename_i hf
    simp only [Prod.mk.injEq, true_and] at h
    have hng : ¬ s.good = true := by simp [IStream.good, hf]
    subst h
    refine .inr ⟨by simp [IStream.good, hf], ?_⟩
    rw [hj.resolve_left hng]; simp
  · rename_i hf
    split at h
    · rename_i hc2
      simp only [Prod.mk.injEq, true_and] at h
      subst h
      have h3 : s.isOpen = true := ho
      rw [h3] at hc2
      exfalso
      simp at hc2
      omega
    · split at h
      · simp only [Prod.mk.injEq, true_and] at h
        subst h
        refine .inl ⟨by simpa [IStream.good] using hf, ?_⟩
        simp only [Int.toNat_natCast]
        exact hpos n
      · rename_i h3
        simp only [Prod.mk.injEq, true_and] at h
        subst h
        refine .inr ⟨by simp [IStream.good, IStream.setFail], ?_⟩
        simp only [Int.toNat_natCast, Bool.or_eq_true, decide_eq_true_eq, not_or] at h3
        rw [← hpos n]
        exact List.drop_of_length_le (by have := h3.2; omega)

/-- `x` takes `k` bytes and returns `f` of the rest. -/
def Takes {α : Type} (x : IM α) (k : Nat) (f : Bytes → α) : Prop :=
  ∀ s, s.J → ∃ s', x s = (.ok (f s.rest), s') ∧ s'.J ∧ s'.rest = s.rest.drop k ∧ s'.all = s.all

theorem takes_getcFF : Takes getcFF 1 (fun r => (r[0]?).getD 0xFF) := by
  intro s hs
  unfold getcFF
  rw [SM.bind_apply]
  simp only [IStream.getc]
  by_cases hg : s.good = true
  · rw [if_pos hg]
    match hr : s.rest with
    | [] => exact ⟨_, rfl, .inr hr, by simp [IStream.setEofFail, hr], rfl⟩
    | b :: r => exact ⟨_, rfl, .inl hg, by simp, rfl⟩
  · rw [if_neg hg]
    have hr := hs.resolve_left hg
    rw [hr]
    exact ⟨_, rfl, .inr hr, by simp [IStream.setFail, hr], rfl⟩

/-- Value of the first `k` bytes. -/
def leHead : Nat → Bytes → Nat
  | 0, _ => 0
  | k + 1, r => ((r[0]?).getD 0xFF).toNat + 256 * leHead k (r.drop 1)

theorem takes_readLE (k : Nat) : Takes (readLE k) k (leHead k) := by
  induction k with
  | zero => intro s hs; exact ⟨s, rfl, hs, by simp, rfl⟩
  | succ k ih =>
    intro s hs
    obtain ⟨s1, h1, h2, h3, h4⟩ := takes_getcFF s hs
    obtain ⟨s2, g1, g2, g3, g4⟩ := ih s1 h2
    rw [readLE, SM.bind_ok h1, SM.bind_ok g1]
    refine ⟨s2, ?_, g2, by rw [g3, h3, List.drop_drop, Nat.add_comm], by rw [g4, h4]⟩
    rw [h3]; rfl

theorem takes_read (n : Nat) : Takes (IStream.read n) n (fun r => r.take n) := by
  intro s hs
  simp only [IStream.read]
  by_cases hg : s.good = true
  · rw [if_pos hg]
    by_cases hn : n ≤ s.rest.length
    · rw [if_pos hn]; exact ⟨_, rfl, .inl hg, rfl, rfl⟩
    · rw [if_neg hn]
      refine ⟨{ s with rest := [], eof := true, fail := true }, by rw [List.take_of_length_le (by omega)], .inr rfl, ?_, rfl⟩
      simp only
      rw [List.drop_of_length_le (by omega)]
  · rw [if_neg hg]
    have hr := hs.resolve_left hg
    rw [hr]
    exact ⟨s.setFail, by simp, .inr hr, by simp [IStream.setFail, hr], rfl⟩

theorem takes_readName (n : Nat) : Takes (readName n) n (fun r => r.take n ++ List.replicate (n - (r.take n).length) 0) := by
  intro s hs
  obtain ⟨s1, h1, h2, h3, h4⟩ := takes_read n s hs
  unfold readName
  rw [SM.bind_ok h1]
  exact ⟨s1, rfl, h2, h3, h4⟩

theorem leSum_mul (l : List Nat) (f : Nat → Nat) (c : Nat) : (l.map fun i => c * f i).sum = c * (l.map f).sum := by
  induction l with
  | nil => simp
  | cons x l ih => simp [ih, Nat.mul_add]

theorem leHead_eq (k : Nat) (r : Bytes) : leHead k r = leAt r 0 k := by
  induction k generalizing r with
  | zero => rfl
  | succ k ih =>
    rw [leHead, ih]
    unfold leAt
    rw [List.range_succ_eq_map, List.map_cons, List.sum_cons, List.map_map]
    simp only [Nat.add_zero, Nat.pow_zero, Nat.mul_one, Nat.zero_add]
    congr 1
    rw [← leSum_mul]
    congr 1
    apply List.map_congr_left
    intro i _
    simp only [Function.comp_apply, List.getElem?_drop, Nat.pow_succ]
    rw [Nat.add_comm 1 i, ← Nat.mul_assoc, Nat.mul_comm 256, Nat.mul_assoc, Nat.mul_comm 256]

theorem leHead_lt (k : Nat) (r : Bytes) : leHead k r < 256 ^ k := by
  induction k generalizing r with
  | zero => simp [leHead]
  | succ k ih =>
    have h1 := ih (r.drop 1)
    have h2 := ((r[0]?).getD 0xFF).toNat_lt
    rw [leHead, Nat.pow_succ]
    omega

theorem leAt_drop (r : Bytes) (p off k : Nat) : leAt (r.drop p) off k = leAt r (p + off) k := by
  unfold leAt
  congr 1
  apply List.map_congr_left
  intro i _
  rw [List.getElem?_drop, Nat.add_assoc]

/-- Inversion of a signature check. -/
theorem assertSig_inv {sig : Bytes} {s s' : IStream} (h : assertSig sig s = (.ok (), s')) :
    s.good = true ∧ s.rest.take 4 = sig ∧ s'.J ∧ s'.rest = s.rest.drop 4 ∧ s'.all = s.all := by
  unfold assertSig at h
  obtain ⟨a, s1, h1, h2⟩ := SM.of_bind_ok h
  by_cases hg : s.good = true
  · obtain ⟨s2, g1, g2, g3, g4⟩ := takes_read 4 s (.inl hg)
    rw [h1] at g1
    simp only [Prod.mk.injEq, Except.ok.injEq] at g1
    obtain ⟨rfl, rfl⟩ := g1
    split at h2
    · simp at h2
    · split at h2
      · simp at h2
      · rename_i hne
        simp only [SM.pure_apply, Prod.mk.injEq, true_and] at h2
        subst h2
        exact ⟨hg, by simpa using hne, g2, g3, g4⟩
  · exfalso
    simp only [IStream.read, if_neg hg, Prod.mk.injEq, Except.ok.injEq] at h1
    rw [← h1.1] at h2
    simp at h2

/-- Inversion through a taking action. -/
theorem Takes.inv {α β : Type} {x : IM α} {k : Nat} {f : Bytes → α} (hx : Takes x k f) {g : α → IM β} {s s' : IStream} {v : β}
    (hs : s.J) (h : (x >>= g) s = (.ok v, s')) :
    ∃ s1, s1.J ∧ s1.rest = s.rest.drop k ∧ s1.all = s.all ∧ g (f s.rest) s1 = (.ok v, s') := by
  obtain ⟨s1, h1, h2, h3, h4⟩ := hx s hs
  rw [SM.bind_ok h1] at h
  exact ⟨s1, h2, h3, h4, h⟩

theorem zip64Values_drop (b : Bytes) (p x : Nat) (fs : List Nat) :
    Spec.zip64Values (b.drop p) x fs = Spec.zip64Values b (p + x) fs := by
  induction fs generalizing x with
  | nil => rfl
  | cons f fs ih =>
    simp only [Spec.zip64Values, leAt_drop, ih, Nat.add_assoc]

theorem headerValues_drop (b : Bytes) (p xlen x : Nat) (fs vs : List Nat) :
    Spec.HeaderValues (b.drop p) xlen x fs vs ↔ Spec.HeaderValues b xlen (p + x) fs vs := by
  simp only [Spec.HeaderValues, leAt_drop, zip64Values_drop, Nat.add_assoc]

/-- The fields a ZIP64 extra field can replace. -/
def FileEntry.fields (h : FileEntry) (off : Bool) : List Nat :=
  [h.uncompressedSize, h.compressedSize] ++ if off then [h.offset] else []

theorem zip64Values_steps {b : Bytes} {off : Bool} {u c o u' c' o' n1 n2 n3 : Nat}
    (v1 : u = 0xFFFFFFFF ∧ u' = leAt b 4 8 ∧ n1 = 8 ∨ u ≠ 0xFFFFFFFF ∧ u' = u ∧ n1 = 0)
    (v2 : c = 0xFFFFFFFF ∧ c' = leAt b (4 + n1) 8 ∧ n2 = n1 + 8 ∨ c ≠ 0xFFFFFFFF ∧ c' = c ∧ n2 = n1)
    (v3 : off = true ∧ o = 0xFFFFFFFF ∧ o' = leAt b (4 + n2) 8 ∧ n3 = n2 + 8 ∨
          (off = true → o ≠ 0xFFFFFFFF) ∧ o' = o ∧ n3 = n2) :
    8 * ([u, c] ++ if off then [o] else []).count 0xFFFFFFFF ≤ n3 ∧
      [u', c'] ++ (if off then [o'] else []) = Spec.zip64Values b 4 ([u, c] ++ if off then [o] else []) := by
  have cc : ∀ (f : Nat) (l : List Nat), (f :: l).count 0xFFFFFFFF = l.count 0xFFFFFFFF + if f = 0xFFFFFFFF then 1 else 0 := by
    intro f l
    rw [List.count_cons]
    by_cases hf : f = 0xFFFFFFFF
    · rw [if_pos hf, hf]; rfl
    · rw [if_neg hf, if_neg (by simpa using hf)]
  simp only [List.cons_append, List.nil_append]
  rw [cc, cc]
  simp only [Spec.zip64Values]
  have h3 : ∀ x, x = 4 + n2 → (if off then [o'] else []) = Spec.zip64Values b x (if off then [o] else []) ∧
      n3 = n2 + 8 * (if off then [o] else []).count 0xFFFFFFFF := by
    rintro x rfl
    rcases v3 with ⟨rfl, rfl, rfl, rfl⟩ | ⟨z1, rfl, rfl⟩
    · exact ⟨rfl, rfl⟩
    · cases off
      · exact ⟨rfl, rfl⟩
      · have := z1 rfl
        simp only [if_true]
        rw [cc, if_neg this, Spec.zip64Values, if_neg this]
        exact ⟨rfl, rfl⟩
  rcases v1 with ⟨rfl, rfl, rfl⟩ | ⟨x1, rfl, rfl⟩ <;> rcases v2 with ⟨rfl, rfl, rfl⟩ | ⟨y1, rfl, rfl⟩
  · obtain ⟨p1, p2⟩ := h3 _ rfl
    rw [if_pos rfl, if_pos rfl, p1]
    exact ⟨by rw [p2]; omega, rfl⟩
  · obtain ⟨p1, p2⟩ := h3 _ rfl
    rw [if_pos rfl, if_neg y1, if_pos rfl, if_neg y1, p1]
    exact ⟨by rw [p2]; omega, rfl⟩
  · obtain ⟨p1, p2⟩ := h3 _ rfl
    rw [if_neg x1, if_pos rfl, if_neg x1, if_pos rfl, p1]
    exact ⟨by rw [p2]; omega, rfl⟩
  · obtain ⟨p1, p2⟩ := h3 _ rfl
    rw [if_neg x1, if_neg y1, if_neg x1, if_neg y1, p1]
    exact ⟨by rw [p2]; omega, rfl⟩

/-- What a ZIP64 field can change. -/
theorem readZip64Extra_inv {h0 e : FileEntry} {off : Bool} {s s' : IStream} (hs : s.J) {xlen : Nat} (hx : 0 < xlen)
    (h : readZip64Extra h0 off s = (.ok e, s')) :
    e.filename = h0.filename ∧ e.crc32 = h0.crc32 ∧ e.compressionMethod = h0.compressionMethod ∧
      Spec.HeaderValues s.rest xlen 0 (h0.fields off) (e.fields off) ∧
      (h0.offset < 2 ^ 64 → e.offset < 2 ^ 64) ∧ s'.all = s.all ∧
      (s.Tail → s'.isOpen = true → s'.At (s.rest.drop (4 + leAt s.rest 2 2))) := by
  unfold readZip64Extra at h
  obtain ⟨s1, j1, r1, a1, h⟩ := (takes_readLE 2).inv hs h
  split at h
  · simp at h
  · rename_i htag
    obtain ⟨s2, j2, r2, a2, h⟩ := (takes_readLE 2).inv j1 h
    have q2 : s2.rest = s.rest.drop 4 := by rw [r2, r1, List.drop_drop]
    have htag : leAt s.rest 0 2 = 1 := by rw [← leHead_eq]; simpa [ZIP64_TAG] using htag
    have hsz : leHead 2 s1.rest = leAt s.rest 2 2 := by rw [leHead_eq, r1, leAt_drop]
    rw [hsz] at h
    obtain ⟨⟨h1, n1⟩, s3, e1, h⟩ := SM.of_bind_ok h
    have k1 : h1.filename = h0.filename ∧ h1.crc32 = h0.crc32 ∧ h1.compressionMethod = h0.compressionMethod ∧
        h1.compressedSize = h0.compressedSize ∧ h1.offset = h0.offset ∧ s3.J ∧ s3.all = s2.all ∧
        (h0.uncompressedSize = 0xFFFFFFFF ∧ h1.uncompressedSize = leAt s.rest 4 8 ∧ n1 = 8 ∨
          h0.uncompressedSize ≠ 0xFFFFFFFF ∧ h1.uncompressedSize = h0.uncompressedSize ∧ n1 = 0) ∧
        s3.rest = s.rest.drop (4 + n1) := by
      split at e1
      · rename_i hp
        obtain ⟨s', j, r, a, e⟩ := (takes_readLE 8).inv j2 e1
        simp only [SM.pure_apply, Prod.mk.injEq, Except.ok.injEq] at e
        obtain ⟨⟨rfl, rfl⟩, rfl⟩ := e
        refine ⟨rfl, rfl, rfl, rfl, rfl, j, a, .inl ⟨hp, ?_, rfl⟩, by rw [r, q2, List.drop_drop]⟩
        simp only
        rw [leHead_eq, q2, leAt_drop]
      · rename_i hp
        simp only [SM.pure_apply, Prod.mk.injEq, Except.ok.injEq] at e1
        obtain ⟨⟨rfl, rfl⟩, rfl⟩ := e1
        exact ⟨rfl, rfl, rfl, rfl, rfl, j2, rfl, .inr ⟨hp, rfl, rfl⟩, q2⟩
    obtain ⟨a1', a2', a3', a4', a5', jk1, a7', v1, q3⟩ := k1
    obtain ⟨⟨h2, n2⟩, s4, e2, h⟩ := SM.of_bind_ok h
    have k2 : h2.filename = h1.filename ∧ h2.crc32 = h1.crc32 ∧ h2.compressionMethod = h1.compressionMethod ∧
        h2.uncompressedSize = h1.uncompressedSize ∧ h2.offset = h1.offset ∧ s4.J ∧ s4.all = s3.all ∧
        (h1.compressedSize = 0xFFFFFFFF ∧ h2.compressedSize = leAt s.rest (4 + n1) 8 ∧ n2 = n1 + 8 ∨
          h1.compressedSize ≠ 0xFFFFFFFF ∧ h2.compressedSize = h1.compressedSize ∧ n2 = n1) ∧
        s4.rest = s.rest.drop (4 + n2) := by
      split at e2
      · rename_i hp
        obtain ⟨s', j, r, a, e⟩ := (takes_readLE 8).inv jk1 e2
        simp only [SM.pure_apply, Prod.mk.injEq, Except.ok.injEq] at e
        obtain ⟨⟨rfl, rfl⟩, rfl⟩ := e
        refine ⟨rfl, rfl, rfl, rfl, rfl, j, a, .inl ⟨hp, ?_, rfl⟩, by rw [r, q3, List.drop_drop, Nat.add_assoc]⟩
        simp only
        rw [leHead_eq, q3, leAt_drop]
        rfl
      · rename_i hp
        simp only [SM.pure_apply, Prod.mk.injEq, Except.ok.injEq] at e2
        obtain ⟨⟨rfl, rfl⟩, rfl⟩ := e2
        exact ⟨rfl, rfl, rfl, rfl, rfl, jk1, rfl, .inr ⟨hp, rfl, rfl⟩, q3⟩
    obtain ⟨b1, b2, b3, b4, b5, jk2, b7, v2, q4⟩ := k2
    obtain ⟨⟨h3, n3⟩, s5, e3, h⟩ := SM.of_bind_ok h
    have k3 : h3.filename = h2.filename ∧ h3.crc32 = h2.crc32 ∧ h3.compressionMethod = h2.compressionMethod ∧
        h3.uncompressedSize = h2.uncompressedSize ∧ h3.compressedSize = h2.compressedSize ∧
        (h2.offset < 2 ^ 64 → h3.offset < 2 ^ 64) ∧ s5.all = s4.all ∧ s5.J ∧ s5.rest = s.rest.drop (4 + n3) ∧
        (off = true ∧ h2.offset = 0xFFFFFFFF ∧ h3.offset = leAt s.rest (4 + n2) 8 ∧ n3 = n2 + 8 ∨
          (off = true → h2.offset ≠ 0xFFFFFFFF) ∧ h3.offset = h2.offset ∧ n3 = n2) := by
      split at e3
      · rename_i hp
        obtain ⟨s', j, r, a, e⟩ := (takes_readLE 8).inv jk2 e3
        simp only [SM.pure_apply, Prod.mk.injEq, Except.ok.injEq] at e
        obtain ⟨⟨rfl, rfl⟩, rfl⟩ := e
        simp only [Bool.and_eq_true, decide_eq_true_eq] at hp
        refine ⟨rfl, rfl, rfl, rfl, rfl, fun _ => leHead_lt 8 _, a, j, by rw [r, q4, List.drop_drop, Nat.add_assoc], .inl ⟨hp.1, hp.2, ?_, rfl⟩⟩
        simp only
        rw [leHead_eq, q4, leAt_drop]
        rfl
      · rename_i hp
        simp only [SM.pure_apply, Prod.mk.injEq, Except.ok.injEq] at e3
        obtain ⟨⟨rfl, rfl⟩, rfl⟩ := e3
        refine ⟨rfl, rfl, rfl, rfl, rfl, id, rfl, jk2, q4, .inr ⟨fun ho => ?_, rfl, rfl⟩⟩
        intro hc
        exact hp (by rw [ho, hc]; rfl)
    obtain ⟨c1, c2, c3, c4, c5, cl, c6, j5, q5, v3⟩ := k3
    have kf : e = h3 ∧ s'.all = s5.all ∧ n3 ≤ leAt s.rest 2 2 ∧
        (s5.Tail → s'.isOpen = true → s'.At (s5.rest.drop (leAt s.rest 2 2 - n3))) := by
      dsimp only at h
      split at h
      · simp at h
      · rename_i hle
        split at h
        · obtain ⟨u, s6, g1, g2⟩ := SM.of_bind_ok h
          simp only [SM.pure_apply, Prod.mk.injEq, Except.ok.injEq] at g2
          obtain ⟨rfl, rfl⟩ := g2
          have hle := Nat.le_of_not_lt hle
          refine ⟨rfl, ?_, hle, fun ht ho => ?_⟩
          on_goal 2 =>
            refine seekgCur_at ?_ j5 ht ho
            rw [← g1]
            congr 2
            exact Int.ofNat_sub hle
          simp only [IStream.seekgCur, IStream.seekg] at g1
          split at g1
          · simp only [Prod.mk.injEq, true_and] at g1; rw [← g1]
          · split at g1
            · simp only [Prod.mk.injEq, true_and] at g1; rw [← g1]; rfl
            · split at g1
              · simp only [Prod.mk.injEq, true_and] at g1; rw [← g1]
              · simp only [Prod.mk.injEq, true_and] at g1; rw [← g1]; rfl
        · simp only [SM.pure_apply, Prod.mk.injEq, Except.ok.injEq] at h
          rename_i hnl
          refine ⟨h.1.symm, by rw [h.2], Nat.le_of_not_lt hle, fun _ _ => ?_⟩
          rw [← h.2, Nat.sub_eq_zero_of_le (Nat.le_of_not_lt hnl), List.drop_zero]
          exact j5.at
    obtain ⟨rfl, ha, hn3, hat⟩ := kf
    refine ⟨by rw [c1, b1, a1'], by rw [c2, b2, a2'], by rw [c3, b3, a3'], ?_, ?_, by rw [ha, c6, b7, a7', a2, a1], ?_⟩
    · unfold Spec.HeaderValues
      rw [if_neg (by omega)]
      rw [a4'] at v2
      rw [b5, a5'] at v3
      obtain ⟨w1, w2⟩ := zip64Values_steps v1 v2 v3
      refine ⟨htag, Nat.le_trans w1 hn3, ?_⟩
      rw [FileEntry.fields, c4, b4, c5]
      exact w2
    · rw [← a5', ← b5]; exact cl
    · rintro ⟨p, hp⟩ ho
      have := hat ⟨p + (4 + n3), by rw [q5, hp, List.drop_drop, c6, b7, a7', a2, a1]⟩ ho
      rw [q5, List.drop_drop] at this
      rwa [show 4 + n3 + (leAt s.rest 2 2 - n3) = 4 + leAt s.rest 2 2 by omega] at this

theorem readSharedHeader_inv {b : FileEntry} {s s' : IStream} {e : FileEntry} {n : Nat} (hs : s.J)
    (h : readSharedHeader b s = (.ok (e, n), s')) :
    s'.J ∧ s'.rest = s.rest.drop 22 ∧ s'.all = s.all ∧ n = leAt s.rest 20 2 ∧
      e.compressionMethod = leAt s.rest 2 2 ∧ e.crc32 = leAt s.rest 8 4 ∧ e.compressedSize = leAt s.rest 12 4 ∧
      e.uncompressedSize = leAt s.rest 16 4 := by
  unfold readSharedHeader at h
  obtain ⟨s1, j1, r1, a1, h⟩ := (takes_readLE 2).inv hs h
  obtain ⟨s2, j2, r2, a2, h⟩ := (takes_readLE 2).inv j1 h
  obtain ⟨s3, j3, r3, a3, h⟩ := (takes_readLE 4).inv j2 h
  obtain ⟨s4, j4, r4, a4, h⟩ := (takes_readLE 4).inv j3 h
  obtain ⟨s5, j5, r5, a5, h⟩ := (takes_readLE 4).inv j4 h
  obtain ⟨s6, j6, r6, a6, h⟩ := (takes_readLE 4).inv j5 h
  obtain ⟨s7, j7, r7, a7, h⟩ := (takes_readLE 2).inv j6 h
  simp only [SM.pure_apply, Prod.mk.injEq, Except.ok.injEq] at h
  obtain ⟨⟨rfl, rfl⟩, rfl⟩ := h
  have hr2 : s2.rest = s.rest.drop 4 := by rw [r2, r1, List.drop_drop]
  have hr3 : s3.rest = s.rest.drop 8 := by rw [r3, hr2, List.drop_drop]
  have hr4 : s4.rest = s.rest.drop 12 := by rw [r4, hr3, List.drop_drop]
  have hr5 : s5.rest = s.rest.drop 16 := by rw [r5, hr4, List.drop_drop]
  have hr6 : s6.rest = s.rest.drop 20 := by rw [r6, hr5, List.drop_drop]
  refine ⟨j7, by rw [r7, hr6, List.drop_drop], by rw [a7, a6, a5, a4, a3, a2, a1], ?_, ?_, ?_, ?_, ?_⟩
  · rw [leHead_eq, hr6, leAt_drop]
  · show leHead 2 s1.rest = _
    rw [leHead_eq, r1, leAt_drop]
  · show leHead 4 s3.rest = _
    rw [leHead_eq, hr3, leAt_drop]
  · show leHead 4 s4.rest = _
    rw [leHead_eq, hr4, leAt_drop]
  · show leHead 4 s5.rest = _
    rw [leHead_eq, hr5, leAt_drop]

theorem readName_fits {r name : Bytes} {n : Nat} (h : name = r.take n ++ List.replicate (n - (r.take n).length) 0) :
    name.length = n ∧ (n ≤ r.length → r.take name.length = name) := by
  have hl : name.length = n := by
    rw [h, List.length_append, List.length_replicate, List.length_take]; omega
  refine ⟨hl, fun hn => ?_⟩
  rw [hl, h, List.length_take, Nat.min_eq_left hn, Nat.sub_self]
  simp

/-- A local header that was read, in terms of the bytes. -/
theorem readLocalHeader_inv {s s' : IStream} {e : FileEntry} (h : readLocalHeader s = (.ok e, s')) :
    s.good = true ∧ Spec.LocalAt s.rest 0 e.filename e.compressionMethod e.crc32 e.compressedSize e.uncompressedSize ∧
      s'.all = s.all ∧ (s.Tail → s'.isOpen = true → s'.At (s.rest.drop (Spec.localSize s.rest 0))) := by
  unfold readLocalHeader at h
  obtain ⟨⟨⟩, s1, h1, h⟩ := SM.of_bind_ok h
  obtain ⟨g0, sg, j1, r1, a1⟩ := assertSig_inv h1
  obtain ⟨s2, j2, r2, a2, h⟩ := (takes_readLE 2).inv j1 h
  split at h
  · simp at h
  rename_i hver
  obtain ⟨⟨e1, n⟩, s3, h3, h⟩ := SM.of_bind_ok h
  obtain ⟨j3, r3, a3, f1, f2, f3, f4, f5⟩ := readSharedHeader_inv j2 h3
  obtain ⟨s4, j4, r4, a4, h⟩ := (takes_readLE 2).inv j3 h
  obtain ⟨s5, j5, r5, a5, h⟩ := (takes_readName n).inv j4 h
  have q2 : s2.rest = s.rest.drop 6 := by rw [r2, r1, List.drop_drop]
  have q4 : s4.rest = s.rest.drop 30 := by rw [r4, r3, q2, List.drop_drop, List.drop_drop]
  have q5 : s5.rest = s.rest.drop (30 + n) := by rw [r5, q4, List.drop_drop]
  have fx : leHead 2 s3.rest = leAt s.rest 28 2 := by rw [leHead_eq, r3, q2, List.drop_drop, leAt_drop]
  rw [q2, leAt_drop] at f1 f2 f3 f4 f5
  have main : ∀ e' : FileEntry, e'.filename = s4.rest.take n ++ List.replicate (n - (s4.rest.take n).length) 0 →
      e'.crc32 = e1.crc32 → e'.compressionMethod = e1.compressionMethod →
      Spec.HeaderValues s5.rest (leHead 2 s3.rest) 0 (e1.fields false) (e'.fields false) →
      Spec.LocalAt s.rest 0 e'.filename e'.compressionMethod e'.crc32 e'.compressedSize e'.uncompressedSize := by
    intro e' hn hc hm hv
    obtain ⟨n1, n2⟩ := readName_fits hn
    refine ⟨sg, ?_, ?_, ?_, ?_, ?_, ?_⟩
    · have := Nat.le_of_not_lt hver
      rwa [leHead_eq, r1, leAt_drop] at this
    · rw [hm, f2]
    · rw [hc, f3]
    · rw [n1, f1]
    · intro hl
      rw [Nat.zero_add, ← q4]
      apply n2
      rw [q4, List.length_drop]; omega
    · rw [r5, q4, List.drop_drop, headerValues_drop, fx] at hv
      rw [n1, Nat.zero_add]
      simp only [FileEntry.fields, f4, f5] at hv
      exact hv
  split at h
  · rename_i hx
    obtain ⟨z1, z2, z3, z4, -, z6, z7⟩ := readZip64Extra_inv j5 hx h
    refine ⟨g0, main e z1 z2 z3 z4, by rw [z6, a5, a4, a3, a2, a1], ?_⟩
    rintro ⟨p, hp⟩ ho
    have := z7 ⟨p + (30 + n), by rw [q5, a5, a4, a3, a2, a1, hp, List.drop_drop]⟩ ho
    rw [q5, List.drop_drop, leAt_drop] at this
    have hl : Spec.localSize s.rest 0 = 30 + n + (4 + leAt s.rest (30 + n + 2) 2) := by
      unfold Spec.localSize
      simp only [Nat.zero_add]
      rw [if_neg (by rw [fx] at hx; exact Nat.pos_iff_ne_zero.mp hx), f1, Nat.add_assoc]
    rwa [hl]
  · rename_i hx
    simp only [SM.pure_apply, Prod.mk.injEq, Except.ok.injEq] at h
    obtain ⟨rfl, rfl⟩ := h
    refine ⟨g0, main _ rfl rfl rfl (by rw [Spec.HeaderValues, if_pos (by omega)]; rfl), by rw [a5, a4, a3, a2, a1], ?_⟩
    intro _ _
    have hl : Spec.localSize s.rest 0 = 30 + n := by
      unfold Spec.localSize
      simp only [Nat.zero_add]
      rw [if_pos (by rw [fx] at hx; omega), f1]
    rw [hl, ← q5]
    exact j5.at

/-- A central header that was read, in terms of the bytes. -/
theorem readCentralHeader_inv {s s' : IStream} {e : FileEntry} (h : readCentralHeader s = (.ok e, s')) :
    s.good = true ∧ Spec.CentralAt s.rest 0 e.filename e.compressionMethod e.crc32 e.compressedSize e.uncompressedSize e.offset ∧
      e.offset < 2 ^ 64 ∧ s'.all = s.all := by
  unfold readCentralHeader at h
  obtain ⟨⟨⟩, s1, h1, h⟩ := SM.of_bind_ok h
  obtain ⟨g0, sg, j1, r1, a1⟩ := assertSig_inv h1
  obtain ⟨s2, j2, r2, a2, h⟩ := (takes_readLE 2).inv j1 h
  obtain ⟨s3, j3, r3, a3, h⟩ := (takes_readLE 2).inv j2 h
  split at h
  · simp at h
  rename_i hver
  obtain ⟨⟨e1, n⟩, s4, h3, h⟩ := SM.of_bind_ok h
  obtain ⟨j4, r4, a4, f1, f2, f3, f4, f5⟩ := readSharedHeader_inv j3 h3
  obtain ⟨s5, j5, r5, a5, h⟩ := (takes_readLE 2).inv j4 h
  obtain ⟨s6, j6, r6, a6, h⟩ := (takes_readLE 2).inv j5 h
  obtain ⟨s7, j7, r7, a7, h⟩ := (takes_readLE 2).inv j6 h
  obtain ⟨s8, j8, r8, a8, h⟩ := (takes_readLE 2).inv j7 h
  obtain ⟨s9, j9, r9, a9, h⟩ := (takes_readLE 4).inv j8 h
  obtain ⟨s10, j10, r10, a10, h⟩ := (takes_readLE 4).inv j9 h
  obtain ⟨s11, j11, r11, a11, h⟩ := (takes_readName n).inv j10 h
  have q3 : s3.rest = s.rest.drop 8 := by rw [r3, r2, r1, List.drop_drop, List.drop_drop]
  have q9 : s9.rest = s.rest.drop 42 := by
    rw [r9, r8, r7, r6, r5, r4, q3]; simp only [List.drop_drop]
  have q10 : s10.rest = s.rest.drop 46 := by
    rw [r10, q9]; simp only [List.drop_drop]
  have fx : leHead 2 s4.rest = leAt s.rest 30 2 := by rw [leHead_eq, r4, q3, List.drop_drop, leAt_drop]
  have fo : leHead 4 s9.rest = leAt s.rest 42 4 := by rw [leHead_eq, q9, leAt_drop]
  rw [q3, leAt_drop] at f1 f2 f3 f4 f5
  have main : ∀ e' : FileEntry, e'.filename = s10.rest.take n ++ List.replicate (n - (s10.rest.take n).length) 0 →
      e'.crc32 = e1.crc32 → e'.compressionMethod = e1.compressionMethod →
      Spec.HeaderValues s11.rest (leHead 2 s4.rest) 0 [e1.uncompressedSize, e1.compressedSize, leHead 4 s9.rest] (e'.fields true) →
      Spec.CentralAt s.rest 0 e'.filename e'.compressionMethod e'.crc32 e'.compressedSize e'.uncompressedSize e'.offset := by
    intro e' hn hc hm hv
    obtain ⟨n1, n2⟩ := readName_fits hn
    refine ⟨sg, ?_, ?_, ?_, ?_, ?_, ?_⟩
    · have := Nat.le_of_not_lt hver
      rwa [leHead_eq, r2, r1, List.drop_drop, leAt_drop] at this
    · rw [hm, f2]
    · rw [hc, f3]
    · rw [n1, f1]
    · intro hl
      rw [Nat.zero_add, ← q10]
      apply n2
      rw [q10, List.length_drop]; omega
    · rw [r11, q10, List.drop_drop, headerValues_drop, fx, f4, f5, fo] at hv
      rw [n1, Nat.zero_add]
      exact hv
  have ha : s11.all = s.all := by rw [a11, a10, a9, a8, a7, a6, a5, a4, a3, a2, a1]
  split at h
  · rename_i hx
    obtain ⟨z1, z2, z3, z4, zl, z6, -⟩ := readZip64Extra_inv j11 hx h
    exact ⟨g0, main e z1 z2 z3 z4, zl (Nat.lt_trans (leHead_lt 4 _) (by decide)), by rw [z6, ha]⟩
  · simp only [SM.pure_apply, Prod.mk.injEq, Except.ok.injEq] at h
    obtain ⟨rfl, rfl⟩ := h
    rename_i hx
    exact ⟨g0, main _ rfl rfl rfl (by rw [Spec.HeaderValues, if_pos (by omega)]; rfl), Nat.lt_trans (leHead_lt 4 _) (by decide), ha⟩

end Npy
