import Verif.Model.Basic
import Mathlib.Tactic.Ring
/-! Lemmas on integers as bytes. -/

namespace Npy

@[simp] theorem leBytes_length (k n : Nat) : (leBytes k n).length = k := by
  induction k generalizing n with
  | zero => rfl
  | succ k ih => simp [leBytes, ih]

theorem leValue_lt (bs : Bytes) : leValue bs < 256 ^ bs.length := by
  induction bs with
  | nil => simp [leValue]
  | cons b bs ih =>
    have hb := b.toNat_lt
    simp only [leValue, List.length_cons, Nat.pow_succ]
    omega

theorem leValue_leBytes (k n : Nat) : leValue (leBytes k n) = n % 256 ^ k := by
  induction k generalizing n with
  | zero => simp [leBytes, leValue, Nat.mod_one]
  | succ k ih =>
    simp only [leBytes, leValue, ih, UInt8.toNat_ofNat']
    rw [Nat.pow_succ' (m := 256), Nat.mod_mul (x := n) (a := 256)]

theorem leValue_leBytes_of_lt {k n : Nat} (h : n < 256 ^ k) : leValue (leBytes k n) = n := by
  rw [leValue_leBytes, Nat.mod_eq_of_lt h]

theorem leBytes_leValue (bs : Bytes) : leBytes bs.length (leValue bs) = bs := by
  induction bs with
  | nil => rfl
  | cons b bs ih =>
    have hb := b.toNat_lt
    simp only [List.length_cons, leBytes, leValue]
    have h1 : (b.toNat + 256 * leValue bs) / 256 = leValue bs := by omega
    have h2 : UInt8.ofNat (b.toNat + 256 * leValue bs) = b := by
      apply UInt8.toNat_inj.mp
      simp only [UInt8.toNat_ofNat']
      omega
    rw [h1, h2, ih]

theorem leValue_append (as bs : Bytes) : leValue (as ++ bs) = leValue as + 256 ^ as.length * leValue bs := by
  induction as with
  | nil => simp [leValue]
  | cons a as ih =>
    simp only [List.cons_append, leValue, ih, List.length_cons, Nat.pow_succ]
    ring

@[simp] theorem hostBytes_length (cfg : Cfg) (k n : Nat) : (hostBytes cfg k n).length = k := by
  unfold hostBytes; split <;> simp

theorem hostValue_hostBytes (cfg : Cfg) {k n : Nat} (h : n < 256 ^ k) : hostValue cfg (hostBytes cfg k n) = n := by
  unfold hostValue hostBytes
  split <;> simp [leValue_leBytes_of_lt h]

theorem hostBytes_hostValue (cfg : Cfg) (bs : Bytes) : hostBytes cfg bs.length (hostValue cfg bs) = bs := by
  unfold hostValue hostBytes
  split
  · have := leBytes_leValue bs.reverse
    rw [List.length_reverse] at this
    rw [this, List.reverse_reverse]
  · exact leBytes_leValue bs

theorem hostValue_lt (cfg : Cfg) (bs : Bytes) : hostValue cfg bs < 256 ^ bs.length := by
  unfold hostValue
  split
  · simpa using leValue_lt bs.reverse
  · exact leValue_lt bs

end Npy
