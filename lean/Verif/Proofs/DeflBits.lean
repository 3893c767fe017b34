import Verif.Proofs.DeflPure
import Verif.Proofs.Canon
/-!
# Bit output of the compressor

`BitOut.Good w v`: the bits put so far are `v`, unless the output buffer overflowed.
-/

namespace Npy
open Spec.Deflate

/-- All bits that were put. -/
def BitOut.view (w : BitOut) : List Bool := Spec.bits w.out ++ lsb w.n w.buf

/-- The bits put so far are `v`, or bytes were dropped because the buffer was full. -/
structure BitOut.Good (w : BitOut) (v : List Bool) : Prop where
  buf : w.buf < 2 ^ w.n
  n : w.n < 8
  fine : w.bad = false
  view : w.view = v ∨ (OUT_LIMIT ≤ w.out.length ∧ 8 * OUT_LIMIT ≤ v.length)

theorem BitOut.require_true (w : BitOut) {c : Bool} (h : c = true) : w.require c = w := by
  rw [h]
  simp [BitOut.require]

theorem BitOut.Good.check {dbg : Bool} {w : BitOut} {v : List Bool} (h : w.Good v) : w.check dbg = .ok w := by
  rw [BitOut.check, h.fine]
  simp

theorem BitOut.view_length (w : BitOut) : w.view.length = 8 * w.out.length + w.n := by
  simp [BitOut.view, bits_length, lsb_length]

theorem BitOut.Good.exact {w : BitOut} {v : List Bool} (h : w.Good v) (hlt : w.out.length < OUT_LIMIT) : w.view = v := by
  rcases h.view with h | h
  · exact h
  · omega

theorem BitOut.Good.fits {w : BitOut} {v : List Bool} (h : w.Good v) (hlt : v.length < 8 * OUT_LIMIT) : w.view = v := by
  rcases h.view with h | h
  · exact h
  · omega

theorem uint8_lsb (x : Nat) : Spec.byteBits (UInt8.ofNat x) = lsb 8 x := by
  rw [byteBits_eq, UInt8.toNat_ofNat']
  exact lsb_mod 8 x

/-- The buffer before the whole bytes are taken out of it. -/
structure BitOut.Wide (w : BitOut) (v : List Bool) : Prop where
  buf : w.buf < 2 ^ w.n
  fine : w.bad = false
  view : w.view = v ∨ (OUT_LIMIT ≤ w.out.length ∧ 8 * OUT_LIMIT ≤ v.length)

theorem BitOut.drain_wide (k : Nat) (w : BitOut) (v : List Bool) (h : w.Wide v) (hk : w.n < 8 * k + 8) :
    (BitOut.drain k w).Good v := by
  induction k generalizing w with
  | zero => exact ⟨h.buf, by simp only [BitOut.drain]; omega, h.fine, h.view⟩
  | succ k ih =>
    rw [BitOut.drain]
    split
    · rename_i h8
      refine ih _ ⟨?_, h.fine, ?_⟩ (by simp only; omega)
      · simp only
        rw [Nat.shiftRight_eq_div_pow, Nat.div_lt_iff_lt_mul (by norm_num), ← pow_add]
        rw [show w.n - 8 + 8 = w.n by omega]
        exact h.buf
      · have e : lsb w.n w.buf = lsb 8 w.buf ++ lsb (w.n - 8) (w.buf >>> 8) := by
          rw [Nat.shiftRight_eq_div_pow, ← lsb_append, show 8 + (w.n - 8) = w.n by omega]
        split
        · rename_i hl
          rcases h.view with hv | hv
          · left
            rw [← hv]
            simp only [BitOut.view, bits_append, bits_cons, bits_nil, List.append_nil, uint8_lsb, e, List.append_assoc]
          · omega
        · rename_i hl
          right
          simp only
          refine ⟨by omega, ?_⟩
          rcases h.view with hv | hv
          · rw [← hv, BitOut.view_length]
            omega
          · exact hv.2
    · rename_i h8
      exact ⟨h.buf, by omega, h.fine, h.view⟩

theorem BitOut.Good.put {w : BitOut} {v : List Bool} (h : w.Good v) {b l : Nat} (hb : b < 2 ^ l) (hl : l ≤ 16) :
    (w.put b l).Good (v ++ lsb l b) := by
  have hn := h.n
  have hlt : w.buf + 2 ^ w.n * b < 2 ^ (w.n + l) := by
    have := h.buf
    have : 2 ^ w.n * (b + 1) ≤ 2 ^ w.n * 2 ^ l := Nat.mul_le_mul_left _ hb
    rw [pow_add]
    rw [mul_add] at this
    omega
  have h32 : (w.buf ||| (b <<< w.n)) % 2 ^ 32 = w.buf + 2 ^ w.n * b := by
    rw [or_shift_eq _ h.buf]
    exact Nat.mod_eq_of_lt (lt_of_lt_of_le hlt (Nat.pow_le_pow_right (by norm_num) (by omega)))
  rw [BitOut.put, h32, BitOut.require_true _ (decide_eq_true (by rw [Nat.one_shiftLeft]; omega))]
  refine BitOut.drain_wide 4 _ _ ⟨hlt, h.fine, ?_⟩ (by simp only; omega)
  rcases h.view with hv | hv
  · left
    rw [← hv]
    simp only [BitOut.view, lsb_add _ _ _ _ h.buf, List.append_assoc]
  · right
    refine ⟨hv.1, ?_⟩
    rw [List.length_append]
    omega

/-- Filling the last byte. -/
theorem BitOut.Good.align {w : BitOut} {v : List Bool} (h : w.Good v) :
    ∃ pad : List Bool, pad.length < 8 ∧ w.align.Good (v ++ pad) ∧ (w.view = v → (v.length + pad.length) % 8 = 0) := by
  unfold BitOut.align
  split
  · rename_i h0
    have hn := h.n
    refine ⟨lsb (8 - w.n) 0, by rw [lsb_length]; omega, h.put (by positivity) (by omega), fun hv => ?_⟩
    rw [← hv, BitOut.view_length, lsb_length]
    omega
  · refine ⟨[], by simp, by simpa using h, fun hv => ?_⟩
    rw [← hv, BitOut.view_length]
    simp only [List.length_nil]
    omega

/-! ### The 64-bit buffer -/

/-- The same with at most `m` bits in the buffer. -/
structure BitOut.Good64 (m : Nat) (w : BitOut) (v : List Bool) : Prop where
  buf : w.buf < 2 ^ w.n
  n : w.n ≤ m
  fine : w.bad = false
  view : w.view = v ∨ (OUT_LIMIT ≤ w.out.length ∧ 8 * OUT_LIMIT ≤ v.length)

theorem BitOut.Good.to64 {w : BitOut} {v : List Bool} (h : w.Good v) : w.Good64 7 v := ⟨h.buf, by have := h.n; omega, h.fine, h.view⟩

theorem BitOut.Good64.check {dbg : Bool} {m : Nat} {w : BitOut} {v : List Bool} (h : w.Good64 m v) : w.check dbg = .ok w := by
  rw [BitOut.check, h.fine]
  simp

theorem BitOut.Good64.put {m : Nat} {w : BitOut} {v : List Bool} (h : w.Good64 m v) {b l : Nat} (hb : b < 2 ^ l)
    (hl : m + l ≤ 64) : (w.put64 b l).Good64 (m + l) (v ++ lsb l b) := by
  have hn := h.n
  have hlt : w.buf + 2 ^ w.n * b < 2 ^ (w.n + l) := by
    have := h.buf
    have : 2 ^ w.n * (b + 1) ≤ 2 ^ w.n * 2 ^ l := Nat.mul_le_mul_left _ hb
    rw [pow_add]
    rw [mul_add] at this
    omega
  have h64 : (w.buf ||| (b <<< w.n)) % 2 ^ 64 = w.buf + 2 ^ w.n * b := by
    rw [or_shift_eq _ h.buf]
    exact Nat.mod_eq_of_lt (lt_of_lt_of_le hlt (Nat.pow_le_pow_right (by norm_num) (by omega)))
  rw [BitOut.put64, h64]
  refine ⟨hlt, by simp only; omega, h.fine, ?_⟩
  rcases h.view with hv | hv
  · left
    rw [← hv]
    simp only [BitOut.view, lsb_add _ _ _ _ h.buf, List.append_assoc]
  · right
    refine ⟨hv.1, ?_⟩
    rw [List.length_append]
    omega

theorem BitOut.Good64.mono {m m' : Nat} {w : BitOut} {v : List Bool} (h : w.Good64 m v) (hm : m ≤ m') : w.Good64 m' v :=
  ⟨h.buf, by have := h.n; omega, h.fine, h.view⟩

theorem leTake_bits (k v : Nat) : Spec.bits (leTake k v) = lsb (8 * k) v := by
  induction k generalizing v with
  | zero => rfl
  | succ k ih =>
    rw [leTake, bits_cons, uint8_lsb, ih, show 8 * (k + 1) = 8 + 8 * k by ring, lsb_append]
    rfl

theorem BitOut.Good64.store {m : Nat} {w w' : BitOut} {v : List Bool} (h : w.Good64 m v) (hs : w.store64P = some w') :
    w'.Good v ∧ w.out.length < OUT_LIMIT := by
  unfold BitOut.store64P at hs
  split at hs
  · simp at hs
  rename_i hl
  have hlt : w.out.length < OUT_LIMIT := by omega
  refine ⟨?_, hlt⟩
  simp only [Option.some.injEq] at hs
  subst hs
  have e8 : 8 * (w.n >>> 3) = w.n - w.n % 8 := by rw [Nat.shiftRight_eq_div_pow]; omega
  refine ⟨?_, by simp only; omega, h.fine, ?_⟩
  · simp only
    rw [Nat.shiftRight_eq_div_pow, Nat.div_lt_iff_lt_mul (by positivity), ← pow_add]
    rw [show w.n % 8 + (w.n - w.n % 8) = w.n by omega]
    exact h.buf
  · left
    rcases h.view with hv | hv
    · rw [← hv]
      simp only [BitOut.view, bits_append, leTake_bits, e8, List.append_assoc]
      congr 1
      rw [Nat.shiftRight_eq_div_pow, ← lsb_append]
      congr 1
      omega
    · omega

theorem putRest_good (f buf n : Nat) (w : BitOut) (v : List Bool) (h : w.Good v) (hb : buf < 2 ^ n) (hf : n ≤ 16 * f) :
    (putRest f buf n w).Good (v ++ lsb n buf) := by
  induction f generalizing buf n w v with
  | zero =>
    have : n = 0 := by omega
    subst this
    simpa [putRest, lsb] using h
  | succ f ih =>
    rw [putRest]
    split
    · rename_i h0
      subst h0
      simpa [lsb] using h
    · rw [mask_eq]
      have hm : buf % 2 ^ 32 % 2 ^ min n 16 = buf % 2 ^ min n 16 :=
        Nat.mod_mod_of_dvd _ (pow_dvd_pow 2 (by omega))
      rw [hm]
      have := ih (buf >>> min n 16) (n - min n 16) _ _ (h.put (Nat.mod_lt buf (by positivity : 0 < 2 ^ min n 16)) (by omega))
        (by
          rw [Nat.shiftRight_eq_div_pow, Nat.div_lt_iff_lt_mul (by positivity), ← pow_add,
            show n - min n 16 + min n 16 = n by omega]
          exact hb) (by omega)
      rw [lsb_mod, List.append_assoc, Nat.shiftRight_eq_div_pow, ← lsb_append,
        show min n 16 + (n - min n 16) = n by omega] at this
      rwa [Nat.shiftRight_eq_div_pow]

end Npy
