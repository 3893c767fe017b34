import Verif.Spec.Deflate
import Verif.Model.Inflate
import Mathlib.Tactic.Ring
import Mathlib.Tactic.Linarith
/-!
# Bits as lists: numbers in bits, the bit buffer
-/

namespace Npy
open Spec.Deflate

/-- The number whose bits, least significant first, are the list. -/
def bval : List Bool → Nat
  | [] => 0
  | b :: bs => b.toNat + 2 * bval bs

theorem lsb_length (n v : Nat) : (lsb n v).length = n := by
  induction n generalizing v with
  | zero => rfl
  | succ n ih => simp [lsb, ih]

theorem msb_length (n v : Nat) : (msb n v).length = n := by simp [msb, lsb_length]

theorem lsb_append (m n v : Nat) : lsb (m + n) v = lsb m v ++ lsb n (v / 2 ^ m) := by
  induction m generalizing v with
  | zero => simp [lsb]
  | succ m ih =>
    rw [show m + 1 + n = (m + n) + 1 by omega]
    simp only [lsb, List.cons_append, ih]
    rw [Nat.div_div_eq_div_mul, Nat.pow_succ, Nat.mul_comm 2]

theorem lsb_mod (n v : Nat) : lsb n (v % 2 ^ n) = lsb n v := by
  induction n generalizing v with
  | zero => rfl
  | succ n ih =>
    simp only [lsb]
    have h1 : v % 2 ^ (n + 1) % 2 = v % 2 := Nat.mod_mod_of_dvd v (Dvd.intro_left (2 ^ n) (by rw [Nat.pow_succ]))
    have h2 : v % 2 ^ (n + 1) / 2 = v / 2 % 2 ^ n := by
      rw [Nat.pow_succ, Nat.mul_comm, Nat.mod_mul_right_div_self]
    rw [h1, h2, ih]

theorem lsb_zero_val (n : Nat) : lsb n 0 = List.replicate n false := by
  induction n with
  | zero => rfl
  | succ n ih => simp [lsb, ih, List.replicate_succ]

theorem lsb_add (m n a b : Nat) (ha : a < 2 ^ m) : lsb (m + n) (a + 2 ^ m * b) = lsb m a ++ lsb n b := by
  rw [lsb_append, ← lsb_mod m, Nat.add_mul_mod_self_left, Nat.mod_eq_of_lt ha, Nat.add_mul_div_left _ _ (Nat.two_pow_pos m),
    Nat.div_eq_of_lt ha, Nat.zero_add]

theorem bval_lsb (n v : Nat) : bval (lsb n v) = v % 2 ^ n := by
  induction n generalizing v with
  | zero => simp [lsb, bval, Nat.mod_one]
  | succ n ih =>
    simp only [lsb, bval, ih]
    rw [Nat.pow_succ, Nat.mul_comm (2 ^ n) 2, Nat.mod_mul]
    rcases Nat.mod_two_eq_zero_or_one v with h | h <;> simp [h]

theorem lsb_bval (l : List Bool) : lsb l.length (bval l) = l := by
  induction l with
  | nil => rfl
  | cons b bs ih =>
    simp only [List.length_cons, lsb, bval]
    have h2 : (b.toNat + 2 * bval bs) / 2 = bval bs := by cases b <;> simp <;> omega
    rw [h2, ih]
    congr 1
    cases b <;> simp

theorem bval_lt (l : List Bool) : bval l < 2 ^ l.length := by
  induction l with
  | nil => simp [bval]
  | cons b bs ih =>
    simp only [bval, List.length_cons, Nat.pow_succ]
    cases b <;> simp <;> omega

theorem bval_append (a b : List Bool) : bval (a ++ b) = bval a + 2 ^ a.length * bval b := by
  induction a with
  | nil => simp [bval]
  | cons x xs ih =>
    simp only [List.cons_append, bval, ih, List.length_cons, Nat.pow_succ]
    ring

theorem lsb_inj {n a b : Nat} (ha : a < 2 ^ n) (hb : b < 2 ^ n) (h : lsb n a = lsb n b) : a = b := by
  have := congrArg bval h
  rwa [bval_lsb, bval_lsb, Nat.mod_eq_of_lt ha, Nat.mod_eq_of_lt hb] at this

theorem lsb_take {n m : Nat} (h : n ≤ m) (v : Nat) : (lsb m v).take n = lsb n v := by
  obtain ⟨k, rfl⟩ := Nat.exists_eq_add_of_le h
  rw [lsb_append]
  exact List.take_left' (lsb_length n v)

theorem lsb_drop {n m : Nat} (h : n ≤ m) (v : Nat) : (lsb m v).drop n = lsb (m - n) (v / 2 ^ n) := by
  obtain ⟨k, rfl⟩ := Nat.exists_eq_add_of_le h
  rw [lsb_append, Nat.add_sub_cancel_left]
  exact List.drop_left' (lsb_length n v)

theorem lsb_prefix {n m : Nat} (h : n ≤ m) (v : Nat) : lsb n v <+: lsb m v := by
  rw [← lsb_take h]; exact List.take_prefix _ _

theorem prefix_lsb_of_le {l : List Bool} {n m v : Nat} (h : l <+: lsb m v) (hl : l.length ≤ n) (hn : n ≤ m) :
    l <+: lsb n v := by
  rw [← lsb_take hn]
  exact List.prefix_take_iff.mpr ⟨h, hl⟩

theorem prefix_lsb {l : List Bool} {n m v : Nat} (h : l <+: lsb m v) (hl : l.length ≤ n) : l <+: lsb n v := by
  rcases Nat.le_total n m with hnm | hnm
  · exact prefix_lsb_of_le h hl hnm
  · exact h.trans (lsb_prefix hnm v)

theorem prefix_lsb_iff {l : List Bool} {n v : Nat} (hl : l.length ≤ n) :
    l <+: lsb n v ↔ v % 2 ^ l.length = bval l := by
  constructor
  · intro h
    have h1 := prefix_lsb_of_le h (Nat.le_refl _) hl
    have h2 := h1.eq_of_length (by rw [lsb_length])
    rw [h2, bval_lsb, lsb_length]
  · intro h
    have : lsb l.length v = l := by rw [← lsb_mod, h, lsb_bval]
    rw [← this]; try rw [lsb_length]
    exact lsb_prefix hl v

theorem lsb_getElem (n v i : Nat) (h : i < n) : (lsb n v)[i]'(by rw [lsb_length]; exact h) = (v / 2 ^ i % 2 == 1) := by
  induction n generalizing v i with
  | zero => omega
  | succ n ih =>
    cases i with
    | zero => simp [lsb]
    | succ i =>
      simp only [lsb, List.getElem_cons_succ]
      rw [ih (v / 2) i (by omega), Nat.div_div_eq_div_mul, Nat.pow_succ, Nat.mul_comm 2]

/-! ### Bytes -/

theorem byteBits_eq (c : UInt8) : Spec.byteBits c = lsb 8 c.toNat := by
  have h : ∀ n, n < 256 → ((List.range 8).map fun i => n.testBit i) = lsb 8 n := by decide +kernel
  exact h c.toNat c.toNat_lt

theorem bits_cons (c : UInt8) (cs : Bytes) : Spec.bits (c :: cs) = Spec.byteBits c ++ Spec.bits cs := by
  simp [Spec.bits]

theorem bits_nil : Spec.bits [] = [] := rfl

theorem bits_append (a b : Bytes) : Spec.bits (a ++ b) = Spec.bits a ++ Spec.bits b := by
  simp [Spec.bits]

theorem byteBits_length (c : UInt8) : (Spec.byteBits c).length = 8 := by rw [byteBits_eq, lsb_length]

theorem bits_length (cs : Bytes) : (Spec.bits cs).length = 8 * cs.length := by
  induction cs with
  | nil => rfl
  | cons c cs ih => rw [bits_cons, List.length_append, ih, byteBits_length, List.length_cons]; omega

/-! ### The bit buffer -/

/-- Nothing above the bits that count. -/
def BitBuf.Ok (b : BitBuf) : Prop := b.buf < 2 ^ b.num

/-- The bits in the buffer, in stream order. -/
def BitBuf.bits (b : BitBuf) : List Bool := lsb b.num b.buf

theorem BitBuf.bits_length (b : BitBuf) : b.bits.length = b.num := lsb_length _ _

theorem or_shift_eq {a n : Nat} (c : Nat) (h : a < 2 ^ n) : a ||| (c <<< n) = a + 2 ^ n * c := by
  rw [Nat.shiftLeft_eq, Nat.mul_comm c, Nat.or_comm, Nat.add_comm, Nat.two_pow_add_eq_or_of_lt h]

theorem BitBuf.Ok.feed {b : BitBuf} (h : b.Ok) (c : UInt8) : (b.feed c).Ok := by
  show b.buf ||| (c.toNat <<< b.num) < 2 ^ (b.num + 8)
  rw [or_shift_eq _ h, Nat.pow_add]
  have := c.toNat_lt
  have h' : b.buf < 2 ^ b.num := h
  nlinarith

theorem BitBuf.bits_feed {b : BitBuf} (h : b.Ok) (c : UInt8) : (b.feed c).bits = b.bits ++ Spec.byteBits c := by
  show lsb (b.num + 8) (b.buf ||| (c.toNat <<< b.num)) = _
  rw [or_shift_eq _ h, lsb_add _ _ _ _ h, byteBits_eq]; rfl

theorem BitBuf.feed_num (b : BitBuf) (c : UInt8) : (b.feed c).num = b.num + 8 := rfl
theorem BitBuf.drop_num (b : BitBuf) (n : Nat) : (b.drop n).num = b.num - n := rfl

theorem BitBuf.Ok.drop {b : BitBuf} (h : b.Ok) {n : Nat} (hn : n ≤ b.num) : (b.drop n).Ok := by
  show b.buf >>> n < 2 ^ (b.num - n)
  rw [Nat.shiftRight_eq_div_pow]
  apply Nat.div_lt_of_lt_mul
  rw [← Nat.pow_add, Nat.add_sub_cancel' hn]
  exact h

theorem BitBuf.bits_drop (b : BitBuf) {n : Nat} (hn : n ≤ b.num) : (b.drop n).bits = b.bits.drop n := by
  show lsb (b.num - n) (b.buf >>> n) = (lsb b.num b.buf).drop n
  rw [Nat.shiftRight_eq_div_pow, lsb_drop hn]

theorem mask_eq (n v : Nat) : v &&& ((1 <<< n) - 1) = v % 2 ^ n := by
  rw [Nat.one_shiftLeft, Nat.and_two_pow_sub_one_eq_mod]

/-- What is left of the stream: the bit buffer, then the bytes not yet read. -/
def strm (b : BitBuf) (rest : Bytes) : List Bool := b.bits ++ Spec.bits rest

theorem strm_feed {b : BitBuf} (h : b.Ok) (c : UInt8) (rest : Bytes) : strm (b.feed c) rest = strm b (c :: rest) := by
  rw [strm, strm, BitBuf.bits_feed h, bits_cons, List.append_assoc]

theorem strm_length (b : BitBuf) (rest : Bytes) : (strm b rest).length = b.num + 8 * rest.length := by
  rw [strm, List.length_append, BitBuf.bits_length, bits_length]

theorem strm_drop {b : BitBuf} {rest : Bytes} {l r : List Bool} (h : strm b rest = l ++ r) (hl : l.length ≤ b.num) :
    strm (b.drop l.length) rest = r := by
  rw [strm, BitBuf.bits_drop b hl, ← List.drop_append_of_le_length (by rw [BitBuf.bits_length]; exact hl)]
  have := congrArg (List.drop l.length) h
  rw [List.drop_left] at this
  exact this

/-- The beginning of the stream is in the buffer. -/
theorem strm_prefix {b : BitBuf} {rest : Bytes} {l r : List Bool} (h : strm b rest = l ++ r) (hl : l.length ≤ b.num) :
    l <+: b.bits := by
  have h1 : l <+: strm b rest := ⟨r, h.symm⟩
  exact List.prefix_of_prefix_length_le h1 (List.prefix_append _ _) (by rw [BitBuf.bits_length]; exact hl)

end Npy
