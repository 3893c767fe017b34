import Verif.Model.Crc
import Verif.Spec.Crc
/-! The table-driven CRC-32 is the bit-by-bit one; single bursts change it. -/

namespace Npy
open Spec

/-- Division of the register by x: one step with a zero bit. -/
def crcS (c : BitVec 32) : BitVec 32 := crcBit c false

theorem crcS_eq (c : BitVec 32) : crcS c = (c >>> 1) ^^^ (if c.getLsbD 0 then 0xEDB88320#32 else 0#32) := by
  unfold crcS crcBit
  cases c.getLsbD 0 <;> simp

theorem crcS_xor (a b : BitVec 32) : crcS (a ^^^ b) = crcS a ^^^ crcS b := by
  rw [crcS_eq, crcS_eq, crcS_eq, BitVec.ushiftRight_xor_distrib, BitVec.getLsbD_xor]
  cases a.getLsbD 0 <;> cases b.getLsbD 0 <;> simp
  · ac_rfl
  · ac_rfl
  · rw [show ∀ x y z : BitVec 32, x ^^^ z ^^^ (y ^^^ z) = x ^^^ y ^^^ (z ^^^ z) by intros; ac_rfl, BitVec.xor_self, BitVec.xor_zero]

/-- A bit as a register value. -/
def bitVal (b : Bool) : BitVec 32 := if b then 1#32 else 0#32

theorem crcBit_eq (c : BitVec 32) (b : Bool) : crcBit c b = crcS (c ^^^ bitVal b) := by
  rw [crcS_xor]
  cases b
  · have : crcS (bitVal false) = 0#32 := by decide
    rw [this, BitVec.xor_zero]; rfl
  · have : crcS (bitVal true) = 0xEDB88320#32 := by decide
    rw [this, crcS_eq]
    unfold crcBit
    cases c.getLsbD 0 <;> simp
    rw [show ∀ x z : BitVec 32, x ^^^ z ^^^ z = x ^^^ (z ^^^ z) by intros; ac_rfl, BitVec.xor_self, BitVec.xor_zero]

theorem crcS_zero : crcS 0#32 = 0#32 := by decide

theorem crcS_shl (y : BitVec 32) (h : y.getLsbD 31 = false) : crcS (y <<< 1) = y := by
  rw [crcS_eq]
  have : (y <<< 1).getLsbD 0 = false := by simp
  rw [this]
  simp only [Bool.false_eq_true, if_false, BitVec.xor_zero]
  ext i hi
  simp only [BitVec.getElem_ushiftRight, BitVec.getLsbD_shiftLeft]
  by_cases h31 : i = 31
  · subst h31
    have : y[31] = y.getLsbD 31 := by simp
    rw [this, h]; simp
  · have h1 : 1 + i < 32 := by omega
    simp [h1]
    rfl

/-- Register after several zero bits. -/
def crcPow : Nat → BitVec 32 → BitVec 32
  | 0, c => c
  | n + 1, c => crcPow n (crcS c)

theorem crcPow_xor (n : Nat) (a b : BitVec 32) : crcPow n (a ^^^ b) = crcPow n a ^^^ crcPow n b := by
  induction n generalizing a b with
  | zero => rfl
  | succ n ih => rw [crcPow, crcS_xor, ih]; rfl

theorem foldl_crcBit_xor (l m : List Bool) (h : l.length = m.length) (c d : BitVec 32) :
    (List.zipWith xor l m).foldl crcBit (c ^^^ d) = l.foldl crcBit c ^^^ m.foldl crcBit d := by
  induction l generalizing m c d with
  | nil => cases m with
    | nil => rfl
    | cons => simp at h
  | cons x l ih => cases m with
    | nil => simp at h
    | cons y m =>
      simp only [List.length_cons, Nat.add_right_cancel_iff] at h
      simp only [List.zipWith_cons_cons, List.foldl_cons]
      rw [← ih m h]
      congr 1
      rw [crcBit_eq, crcBit_eq, crcBit_eq, ← crcS_xor]
      congr 1
      have : bitVal (xor x y) = bitVal x ^^^ bitVal y := by cases x <;> cases y <;> decide
      rw [this]; ac_rfl

theorem foldl_crcBit_zeros (n : Nat) (c : BitVec 32) : (List.replicate n false).foldl crcBit c = crcPow n c := by
  induction n generalizing c with
  | zero => rfl
  | succ n ih => rw [List.replicate_succ, List.foldl_cons, ih]; rfl

/-- The effect of bits on the register splits off. -/
theorem foldl_crcBit_split (l : List Bool) (c : BitVec 32) :
    l.foldl crcBit c = crcPow l.length c ^^^ l.foldl crcBit 0#32 := by
  have := foldl_crcBit_xor (List.replicate l.length false) l (by simp) c 0#32
  rw [foldl_crcBit_zeros, BitVec.xor_zero] at this
  rw [← this]
  congr 1
  apply List.ext_getElem
  · simp
  · intro i h1 h2
    simp

/-! ### The table -/

theorem nibble_table : ∀ i : Fin 16, S_CRC32.getD i 0 = crcPow 4 (BitVec.ofNat 32 i) := by decide

theorem low4_mask : ∀ j : Fin 32, (0xF#32).getLsbD j = decide (j.val < 4) := by decide

theorem low4 (c : BitVec 32) : c = ((c >>> 4) <<< 4) ^^^ (c &&& 0xF#32) := by
  apply BitVec.eq_of_getLsbD_eq
  intro i hi
  have hm := low4_mask ⟨i, hi⟩
  simp only at hm
  rw [BitVec.getLsbD_xor, BitVec.getLsbD_shiftLeft, BitVec.getLsbD_and, BitVec.getLsbD_ushiftRight, hm]
  by_cases h : i < 4
  · simp [h]
  · have : 4 + (i - 4) = i := by omega
    simp [h, this, hi]

theorem crcPow4_shl (y : BitVec 32) : crcPow 4 ((y >>> 4) <<< 4) = y >>> 4 := by
  have key : ∀ k j : Nat, k + j ≤ 4 → crcPow k ((y >>> 4) <<< (k + j)) = (y >>> 4) <<< j := by
    intro k
    induction k with
    | zero => intro j _; simp [crcPow]
    | succ k ih =>
      intro j hj
      rw [crcPow, show k + 1 + j = (k + j) + 1 by omega, BitVec.shiftLeft_add, crcS_shl]
      · exact ih j (by omega)
      · have h1 : 28 ≤ 31 - (k + j) := by omega
        have h2 : ¬ (4 + (31 - (k + j)) < 32) := by omega
        rw [BitVec.getLsbD_shiftLeft, BitVec.getLsbD_ushiftRight, BitVec.getLsbD_of_ge y _ (by omega)]
        simp
  have := key 4 0 (by omega)
  simpa using this

theorem and_xor_lt16 (c n : BitVec 32) (hn : n.toNat < 16) : ((c &&& 0xF#32) ^^^ n).toNat < 16 := by
  rw [BitVec.toNat_xor, BitVec.toNat_and]
  apply Nat.xor_lt_two_pow (n := 4)
  · exact Nat.lt_of_le_of_lt Nat.and_le_right (by decide)
  · exact hn

theorem crcNibble_eq (c n : BitVec 32) (hn : n.toNat < 16) : crcNibble c n = crcPow 4 (c ^^^ n) := by
  unfold crcNibble
  have h16 := and_xor_lt16 c n hn
  have ht := nibble_table ⟨_, h16⟩
  simp only at ht
  have e : c ^^^ n = ((c >>> 4) <<< 4) ^^^ ((c &&& 0xF#32) ^^^ n) := by
    rw [← BitVec.xor_assoc, ← low4 c]
  rw [e, crcPow_xor, crcPow4_shl]
  congr 1
  rw [BitVec.ofNat_toNat, BitVec.setWidth_eq] at ht
  exact ht

/-- Four bits of a nibble. -/
theorem foldl_nibble : ∀ n : Fin 16, ((List.range 4).map fun i => n.val.testBit i).foldl crcBit 0#32 = crcPow 4 (BitVec.ofNat 32 n.val) := by
  decide

theorem byte_nibbles : ∀ b : Fin 256,
    (List.range 8).map (fun i => b.val.testBit i) =
      ((List.range 4).map fun i => (b.val % 16).testBit i) ++ ((List.range 4).map fun i => (b.val / 16).testBit i) ∧
    (BitVec.ofNat 32 b.val &&& 0xF#32) = BitVec.ofNat 32 (b.val % 16) ∧ BitVec.ofNat 32 b.val >>> 4 = BitVec.ofNat 32 (b.val / 16) := by
  decide +kernel

theorem crcByte_unfold (c : BitVec 32) (b : UInt8) : crcByte c b =
    crcNibble (crcNibble c (b.toBitVec.setWidth 32 &&& 0xF#32)) (b.toBitVec.setWidth 32 >>> 4) := rfl

theorem crcByte_eq (c : BitVec 32) (b : UInt8) : crcByte c b = (byteBits b).foldl crcBit c := by
  have hb := byte_nibbles ⟨b.toNat, b.toNat_lt⟩
  simp only at hb
  obtain ⟨h1, h2, h3⟩ := hb
  have hw : b.toBitVec.setWidth 32 = BitVec.ofNat 32 b.toNat := by
    apply BitVec.eq_of_toNat_eq
    rw [BitVec.toNat_setWidth, BitVec.toNat_ofNat]
    rfl
  have hlt := b.toNat_lt
  rw [crcByte_unfold]
  unfold byteBits
  rw [hw, h1, List.foldl_append, h2, h3]
  have step : ∀ (c : BitVec 32) (n : Nat), n < 16 →
      crcNibble c (BitVec.ofNat 32 n) = ((List.range 4).map fun i => n.testBit i).foldl crcBit c := by
    intro c n hn
    have := foldl_nibble ⟨n, hn⟩
    simp only at this
    rw [foldl_crcBit_split, this, crcNibble_eq _ _ (by rw [BitVec.toNat_ofNat]; omega), crcPow_xor]
    simp
  rw [step _ _ (Nat.mod_lt _ (by decide)), step _ _ (by omega)]

theorem foldl_crcByte (bs : Bytes) (c : BitVec 32) : bs.foldl crcByte c = (bits bs).foldl crcBit c := by
  induction bs generalizing c with
  | nil => rfl
  | cons b bs ih => rw [List.foldl_cons, ih, crcByte_eq, ← List.foldl_append]; rfl

/-! ### Bursts -/

theorem crcS_inj {c : BitVec 32} (h : crcS c = 0#32) : c = 0#32 := by
  rw [crcS_eq] at h
  cases h0 : c.getLsbD 0 with
  | true =>
    exfalso
    rw [h0] at h
    simp only [if_true] at h
    have h31 := congrArg (fun x : BitVec 32 => x.getLsbD 31) h
    simp only [BitVec.getLsbD_xor, BitVec.getLsbD_ushiftRight, BitVec.getLsbD_of_ge c (1 + 31) (by omega)] at h31
    revert h31
    decide
  | false =>
    rw [h0] at h
    simp only [Bool.false_eq_true, if_false, BitVec.xor_zero] at h
    ext i hi
    by_cases hi0 : i = 0
    · subst hi0
      simpa using h0
    · have := congrArg (fun x : BitVec 32 => x.getLsbD (i - 1)) h
      simp only [BitVec.getLsbD_ushiftRight] at this
      rw [show 1 + (i - 1) = i by omega, BitVec.getLsbD_eq_getElem hi] at this
      simpa using this

theorem crcPow_inj {n : Nat} {c : BitVec 32} (h : crcPow n c = 0#32) : c = 0#32 := by
  induction n generalizing c with
  | zero => exact h
  | succ n ih => exact crcS_inj (ih h)

/-- Bits as the register value with the first one lowest. -/
def bitsVal (l : List Bool) : Nat := l.foldr (fun b v => (if b then 1 else 0) + 2 * v) 0

theorem bitsVal_lt (l : List Bool) : bitsVal l < 2 ^ l.length := by
  induction l with
  | nil => simp [bitsVal]
  | cons b l ih =>
    simp only [bitsVal, List.foldr_cons, List.length_cons, Nat.pow_succ] at ih ⊢
    split <;> omega

theorem bitsVal_eq_zero {l : List Bool} (h : bitsVal l = 0) : l = List.replicate l.length false := by
  induction l with
  | nil => rfl
  | cons b l ih =>
    simp only [bitsVal, List.foldr_cons] at h ih
    cases b with
    | true => simp at h
    | false =>
      rw [List.length_cons, List.replicate_succ, ← ih (by simp at h; omega)]

/-- At most 32 bits entering an empty register leave what zeros leave of the register holding those bits. -/
theorem foldl_window (l : List Bool) (h : l.length ≤ 32) :
    l.foldl crcBit 0#32 = crcPow l.length (BitVec.ofNat 32 (bitsVal l)) := by
  induction l with
  | nil => rfl
  | cons b l ih =>
    have hl : l.length ≤ 31 := by simpa using h
    rw [List.foldl_cons, foldl_crcBit_split, ih (by omega), List.length_cons, crcPow, ← crcPow_xor]
    congr 1
    rw [crcBit_eq, BitVec.zero_xor]
    have hv := bitsVal_lt l
    have hv' : bitsVal l < 2 ^ 31 := Nat.lt_of_lt_of_le hv (Nat.pow_le_pow_right (by decide) hl)
    have e : BitVec.ofNat 32 (bitsVal (b :: l)) = bitVal b ^^^ (BitVec.ofNat 32 (bitsVal l)) <<< 1 := by
      apply BitVec.eq_of_toNat_eq
      rw [BitVec.toNat_xor, BitVec.toNat_shiftLeft, BitVec.toNat_ofNat, BitVec.toNat_ofNat]
      have e1 : bitsVal (b :: l) = (if b then 1 else 0) + 2 * bitsVal l := rfl
      rw [e1, Nat.mod_eq_of_lt (a := bitsVal l) (by omega), Nat.shiftLeft_eq, Nat.pow_one]
      have e2 : (bitVal b).toNat = if b then 1 else 0 := by cases b <;> rfl
      rw [e2, Nat.mod_eq_of_lt (a := bitsVal l * 2) (by omega), Nat.mod_eq_of_lt (by split <;> omega)]
      cases b with
      | false => simp [Nat.mul_comm]
      | true =>
        simp only [if_true]
        rw [Nat.mul_comm (bitsVal l) 2]
        have := Nat.two_pow_add_eq_or_of_lt (i := 1) (b := 1) (by decide) (bitsVal l)
        have hx : 1 ^^^ 2 * bitsVal l = 2 * bitsVal l + 1 := by
          apply Nat.eq_of_testBit_eq
          intro i
          rw [Nat.testBit_xor]
          cases i with
          | zero => simp [Nat.testBit_zero]
          | succ i =>
            rw [Nat.testBit_succ, Nat.testBit_succ, Nat.testBit_succ]
            rw [show 2 * bitsVal l / 2 = bitsVal l by omega, show (2 * bitsVal l + 1) / 2 = bitsVal l by omega]
            simp
        rw [hx, Nat.add_comm]
    rw [e, crcS_xor]
    congr 1
    rw [crcS_shl]
    rw [BitVec.getLsbD_ofNat]
    simp [Nat.testBit_lt_two_pow hv']

/-- A change within 32 bits changes the register. -/
theorem burst {A B X Y : List Bool} (hl : X.length = Y.length) (hle : X.length ≤ 32) (hne : X ≠ Y) (c : BitVec 32) :
    (A ++ X ++ B).foldl crcBit c ≠ (A ++ Y ++ B).foldl crcBit c := by
  intro h
  rw [List.foldl_append, List.foldl_append, List.foldl_append, List.foldl_append] at h
  generalize A.foldl crcBit c = d at h
  rw [foldl_crcBit_split B, foldl_crcBit_split B (Y.foldl crcBit d)] at h
  have h1 : crcPow B.length (X.foldl crcBit d ^^^ Y.foldl crcBit d) = 0#32 := by
    rw [crcPow_xor]
    have := congrArg (· ^^^ (B.foldl crcBit 0#32)) h
    simp only [BitVec.xor_assoc, BitVec.xor_self, BitVec.xor_zero] at this
    rw [this, BitVec.xor_self]
  have h2 := crcPow_inj h1
  rw [← foldl_crcBit_xor X Y hl, BitVec.xor_self] at h2
  have hz : (List.zipWith xor X Y).length = X.length := by simp [hl]
  rw [foldl_window _ (by omega)] at h2
  have h3 := crcPow_inj h2
  have h4 : bitsVal (List.zipWith xor X Y) = 0 := by
    have := congrArg BitVec.toNat h3
    rw [BitVec.toNat_ofNat] at this
    have hlt := bitsVal_lt (List.zipWith xor X Y)
    have : bitsVal (List.zipWith xor X Y) < 2 ^ 32 := Nat.lt_of_lt_of_le hlt (Nat.pow_le_pow_right (by decide) (by omega))
    simp only [BitVec.toNat_ofNat, Nat.zero_mod] at *
    omega
  have h5 := bitsVal_eq_zero h4
  apply hne
  apply List.ext_getElem hl
  intro i hi1 hi2
  have := congrArg (fun l => l[i]?) h5
  simp only [List.getElem?_zipWith, List.getElem?_eq_getElem hi1, List.getElem?_eq_getElem hi2] at this
  rw [List.getElem?_replicate, if_pos (by omega)] at this
  simpa using this

end Npy
