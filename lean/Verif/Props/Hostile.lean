import Verif.Proofs.Keeps
import Verif.Props.Npz
import Verif.Props.Crc
/-!
# Properties of readers on arbitrary bytes (C39, C46, C49) and of damaged archives (C40)
-/

namespace Npy
open Spec (leAt)

/-- **C39**. For every byte string `b`, opened as a string or a file, and any calls made before: if the contents of an entry
are returned, then the archive has a central directory header and a local header for that name that agree on the method,
the checksum and the sizes, the local header is where the directory says, and the returned bytes have the checksum
both headers record. They are the bytes at the local header's end, as many as the headers say (zeros for what the archive
does not hold), unpacked if the method is 8. -/
theorem C39_checked (cfg : Cfg) (codec : Codec) (b : Bytes) (s : IStream) (hs : s = IStream.ofBytes b ∨ s = IStream.ofFile b)
    (r : Reader) (hopen : Reader.open s = .ok r) (calls : List RdCall) (name bytes : Bytes)
    (h : (Reader.readFile codec name (r.after cfg codec calls)).1 = .ok bytes) :
    ∃ stored method crc csize usize p q, (stored = name ∨ stored = name ++ b!".npy") ∧
      Spec.CentralAt b p stored method crc csize usize q ∧ Spec.LocalAt b q stored method crc csize usize ∧
      npyCrc32 bytes = crc ∧
      ∃ raw, raw = (b.drop (q + Spec.localSize b q)).take csize ++
          List.replicate (csize - (b.length - (q + Spec.localSize b q))) 0 ∧
        if method = 8 then codec.inflate raw = .ok bytes else bytes = raw := by
  have hall : s.all = b := by rcases hs with rfl | rfl <;> rfl
  have htail : s.Tail := by rcases hs with rfl | rfl <;> exact ⟨0, rfl⟩
  obtain ⟨o1, o2⟩ := open_inv htail hopen
  obtain ⟨k1, -, k2, -, -⟩ := after_keeps cfg codec r calls
  generalize r.after cfg codec calls = r' at *
  rw [readerReadFile_eq] at h
  simp only at h
  match hf : Npy.readFile codec r'.entries name r'.input with
  | (.error e, _) => rw [hf] at h; simp at h
  | (.ok bs, s') =>
    rw [hf] at h
    simp only [Except.ok.injEq] at h
    subst h
    unfold Npy.readFile at hf
    obtain ⟨n, s1, h1, hf⟩ := SM.of_bind_ok hf
    simp only [SM.lift_apply, Prod.mk.injEq] at h1
    obtain ⟨h1, rfl⟩ := h1
    have hn : n = name ∨ n = name ++ b!".npy" := by
      unfold resolveName at h1
      split at h1
      · simp only [Except.ok.injEq] at h1; exact .inl h1.symm
      · split at h1
        · simp only [Except.ok.injEq] at h1; exact .inr h1.symm
        · simp at h1
    match hl : r'.entries.lookup n with
    | none => rw [hl] at hf; simp at hf
    | some entry =>
      rw [hl] at hf
      simp only at hf
      obtain ⟨⟨⟩, s2, h2, hf⟩ := SM.of_bind_ok hf
      obtain ⟨loc, s3, h3, hf⟩ := SM.of_bind_ok hf
      split at hf
      · simp at hf
      rename_i hck
      obtain ⟨raw, s4, h4, hf⟩ := SM.of_bind_ok hf
      obtain ⟨bs', s5, h5, hf⟩ := SM.of_bind_ok hf
      split at hf
      · simp at hf
      rename_i hcrc
      simp only [SM.pure_apply, Prod.mk.injEq, Except.ok.injEq] at hf
      obtain ⟨rfl, rfl⟩ := hf
      obtain ⟨g1, g2, g3, g4⟩ := readLocalHeader_inv h3
      rw [k1] at hl
      obtain ⟨m1, m3, p, m2⟩ := o1 n entry (mem_of_lookup hl)
      rw [hall] at m2
      have hrest := seekg_good h2 g1
      rw [k2, o2, hall] at hrest
      -- the offset is not negative
      have hoff : (toStreamoff entry.offset).toNat = entry.offset := by
        have hnn : ¬ toStreamoff entry.offset < 0 := by
          intro hneg
          have : s2.good = false := by
            simp only [IStream.seekg] at h2
            split at h2
            · rename_i hfl
              simp only [Prod.mk.injEq, true_and] at h2
              rw [← h2]; simp [IStream.good, hfl]
            · rw [if_pos (by simp [hneg])] at h2
              simp only [Prod.mk.injEq, true_and] at h2
              rw [← h2]; simp [IStream.good, IStream.setFail]
          rw [this] at g1; simp at g1
        unfold toStreamoff at hnn ⊢
        split
        · rfl
        · rename_i hge
          rw [if_neg hge] at hnn
          exfalso
          omega
      rw [hoff] at hrest
      rw [hrest] at g2
      have hc : entry.check loc = true := by
        cases h : entry.check loc
        · exact absurd h hck
        · rfl
      unfold FileEntry.check at hc
      simp only [Bool.not_eq_true', Bool.or_eq_false_iff, bne_eq_false_iff_eq] at hc
      obtain ⟨⟨⟨⟨c1, c2⟩, c3⟩, c4⟩, c5⟩ := hc
      rw [c1, c2, c3, c4, c5, m1] at g2
      refine ⟨n, entry.compressionMethod, entry.crc32, entry.compressedSize, entry.uncompressedSize, p, entry.offset, hn, m2,
        localAt_drop g2, by simpa using hcrc, raw, ?_, ?_⟩
      · have ho2 : s2.isOpen = true := by
          simp only [IStream.seekg] at h2
          split at h2
          · rename_i hfl
            simp only [Prod.mk.injEq, true_and] at h2
            rw [← h2] at g1; simp [IStream.good, hfl] at g1
          · split at h2
            · simp only [Prod.mk.injEq, true_and] at h2
              rw [← h2] at g1; simp [IStream.good, IStream.setFail] at g1
            · rename_i hno
              have hop : r'.input.isOpen = true := by
                cases hop : r'.input.isOpen
                · simp [hop] at hno
                · rfl
              split at h2
              · simp only [Prod.mk.injEq, true_and] at h2
                rw [← h2]; exact hop
              · simp only [Prod.mk.injEq, true_and] at h2
                rw [← h2]; exact hop
        have ho3 : s3.isOpen = true := by
          have := (keeps_readLocalHeader s2).2.1
          rw [h3] at this
          exact this.trans ho2
        have ha2 : s2.all = b := by
          have := (keeps_seekg (toStreamoff entry.offset) r'.input).1
          rw [h2] at this
          rw [this, k2, o2, hall]
        have := g4 ⟨entry.offset, by rw [hrest, ha2]⟩ ho3
        rw [hrest, localSize_drop, List.drop_drop] at this
        rw [readPayload_at this h4, List.length_drop]
      · simp only [SM.lift_apply, Prod.mk.injEq] at h5
        by_cases hm8 : entry.compressionMethod = 8
        · rw [if_pos hm8]
          rw [if_pos (by exact hm8)] at h5
          exact h5.1
        · rw [if_neg hm8]
          rw [if_neg (by exact hm8)] at h5
          simp only [Except.ok.injEq] at h5
          exact h5.1.symm

end Npy
