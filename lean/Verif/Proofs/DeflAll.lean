import Verif.Proofs.DeflDrive
/-!
# The whole of `npy_deflate`
-/

namespace Npy
open Spec.Deflate

theorem outer_ok (dbg : Bool) (j : Junk) (fuel : Nat) (f : Nat) {input output later : Bytes} {s : DeflStream} {st : IStream}
    (h : Live input output s.d later) (hprev : s.prev = .okay) (hw : s.d.wantsToFinish = false) (hg : st.good = true)
    (hr : st.rest = later) (hfu : input.length + 260 ≤ fuel) (hf : later.length < f) :
    ∃ z, npyDeflateOuter false dbg j fuel f s st output = .ok z ∧ Made z input := by
  induction f generalizing s st output later with
  | zero => omega
  | succ f ih =>
    have hls : s.d.lookaheadSize ≤ 258 := by
      obtain ⟨_, _, h1, -⟩ := h
      exact h1.ls
    have hlen : later.length ≤ input.length := by
      obtain ⟨_, _, -, -, h3, -⟩ := h
      rw [← h3, List.length_drop]
      omega
    have hgood := (IStream.good_iff st).1 hg
    rw [npyDeflateOuter]
    by_cases hc : CHUNK ≤ st.rest.length
    · have hread : IStream.read CHUNK st = (.ok (st.rest.take CHUNK), { st with rest := st.rest.drop CHUNK }) := by
        show (if st.good then _ else _) = _
        rw [if_pos hg, if_pos hc]
      rw [hread]
      dsimp only
      have hcp : 0 < CHUNK := by decide
      have hc' : CHUNK ≤ later.length := by rw [← hr]; exact hc
      have htl : (later.take CHUNK).length = CHUNK := by rw [List.length_take, ← hr]; omega
      obtain ⟨ret, s', output', e1, e2, e3, e4, e5⟩ := inner_more dbg j fuel fuel (input := input) (output := output) (later := later.drop CHUNK)
        (s := { s with inp := later.take CHUNK }) (by simp only [List.take_append_drop]; exact h) hprev hw
        (.inl (by rw [List.length_take]; simp only; omega)) (by rw [List.length_take]; simp only; omega)
      rw [hgood.1, hr, e1]
      dsimp only
      rw [if_neg (by simp)]
      refine ih e2 e3 e4 ?_ rfl (by rw [List.length_drop]; omega)
      show (!false && !st.fail) = true
      rw [hgood.2]
      rfl
    · have hread : IStream.read CHUNK st = (.ok st.rest, { st with rest := [], eof := true, fail := true }) := by
        show (if st.good then _ else _) = _
        rw [if_pos hg, if_neg hc]
      rw [hread]
      dsimp only
      obtain ⟨s', output', e1, e2⟩ := inner_last dbg j fuel fuel (input := input) (output := output)
        (s := { s with inp := later }) h hprev (by simp only; omega) (by simp only; omega)
      rw [hr, e1]
      dsimp only
      rw [if_pos rfl, if_neg (by simp)]
      exact ⟨output', rfl, e2⟩

theorem live_init (j : Junk) (input : Bytes) (h : input.length < 2 ^ 32) : Live input [] (Tdefl.init j) input := by
  refine ⟨[], [], ?_, by simp [Tdefl.init, LzBuf.empty, LzBuf.pos], by simp [Tdefl.init], by simp [Tdefl.init]⟩
  constructor
  case small => exact h
  case ls => simp [Tdefl.init]
  case ds => simp [Tdefl.init]
  case win => exact win_empty input _ 0 (by omega)
  case holds => exact LzBuf.holds_empty j
  case rng => simp
  case counts => exact counts_empty
  case expandToks => simp [Tdefl.init, expandToks]
  case total => simp [Tdefl.init]
  case saved => rfl
  case buf => simp [Tdefl.init]
  case bitsIn => simp [Tdefl.init]
  case bits => simp [Tdefl.init, bits_nil, lsb]
  case sok => trivial
  case expand => simp [Tdefl.init, expandBlocks]
  case fin => rfl
  case size => simp [Tdefl.init]
  case dlow => simp [Tdefl.init]

/-- `npy_deflate` makes a DEFLATE stream for its input, whatever the uninitialised memory holds. -/
theorem npyDeflate_ok (dbg : Bool) (j : Junk) (fuel : Nat) (input : Bytes) (h : input.length < 2 ^ 32)
    (hf : input.length + 260 ≤ fuel) : ∃ z, npyDeflate false dbg j fuel input = .ok z ∧ Made z input := by
  unfold npyDeflate
  exact outer_ok dbg j fuel fuel (live_init j input h) rfl rfl rfl rfl hf (by omega)

end Npy
