import Verif.Props.Replace
import Verif.Props.Damage
/-!
# What the checks of a reader cannot see (C39, C40)
-/

namespace Npy
open Spec

/-! ### C40: 33 bits -/

theorem byteBits_xor (a b : UInt8) : byteBits (a ^^^ b) = List.zipWith xor (byteBits a) (byteBits b) := by
  unfold byteBits
  rw [List.zipWith_map_left, List.zipWith_map_right, List.zipWith_self]
  apply List.map_congr_left
  intro i _
  rw [UInt8.toNat_xor, Nat.testBit_xor]

theorem bits_xor (as bs : Bytes) (h : as.length = bs.length) :
    bits (List.zipWith (· ^^^ ·) as bs) = List.zipWith xor (bits as) (bits bs) := by
  induction as generalizing bs with
  | nil => cases bs with
    | nil => rfl
    | cons => simp at h
  | cons a as ih => cases bs with
    | nil => simp at h
    | cons b bs =>
      simp only [List.length_cons, Nat.add_right_cancel_iff] at h
      have e : bits (List.zipWith (· ^^^ ·) (a :: as) (b :: bs)) = byteBits (a ^^^ b) ++ bits (List.zipWith (· ^^^ ·) as bs) := rfl
      have ea : bits (a :: as) = byteBits a ++ bits as := rfl
      have eb : bits (b :: bs) = byteBits b ++ bits bs := rfl
      rw [e, ih bs h, byteBits_xor, ea, eb, List.zipWith_append (by simp [byteBits])]

/-- The 33 bits of the generator polynomial, as bytes. -/
def crcPoly : Bytes := [0x41, 0x06, 0x71, 0xDB, 0x01]

theorem crcPoly_bits : bits crcPoly =
    [true, false, false, false, false, false, true, false, false, true, true, false, false, false, false, false, true, false, false, false,
     true, true, true, false, true, true, false, true, true, false, true, true, true] ++ List.replicate 7 false := by decide +kernel

theorem crcPoly_zero : (bits crcPoly).foldl crcBit 0#32 = 0#32 := by decide +kernel

theorem zipWith_xor_false (l : List Bool) : List.zipWith xor l (List.replicate l.length false) = l := by
  induction l with
  | nil => rfl
  | cons a l ih => rw [List.length_cons, List.replicate_succ, List.zipWith_cons_cons, ih]; simp

/-- Five bytes anywhere can be changed within 33 consecutive bits without a change of the CRC-32. -/
theorem crc_hole (a m c : Bytes) (hm : m.length = 5) :
    ∃ m' X X' t, m'.length = 5 ∧ bits (a ++ m ++ c) = bits a ++ X ++ (t ++ bits c) ∧ bits (a ++ m' ++ c) = bits a ++ X' ++ (t ++ bits c) ∧
      X.length = 33 ∧ X'.length = 33 ∧ X ≠ X' ∧ Spec.crc32 (a ++ m' ++ c) = Spec.crc32 (a ++ m ++ c) := by
  have happ : ∀ x y : Bytes, bits (x ++ y) = bits x ++ bits y := fun x y => List.flatMap_append
  have hb : (bits m).length = 40 := by
    match m, hm with
    | [_, _, _, _, _], _ => simp [bits, byteBits]
  have hx := bits_xor m crcPoly hm
  have hsplit : bits m = (bits m).take 33 ++ (bits m).drop 33 := (List.take_append_drop 33 _).symm
  obtain ⟨X, hX⟩ : ∃ X, X = (bits m).take 33 := ⟨_, rfl⟩
  obtain ⟨t, ht⟩ : ∃ t, t = (bits m).drop 33 := ⟨_, rfl⟩
  rw [← hX, ← ht] at hsplit
  have lX : X.length = 33 := by rw [hX, List.length_take, hb]; rfl
  have lt : t.length = 7 := by rw [ht, List.length_drop, hb]
  obtain ⟨G, hG⟩ : ∃ G : List Bool, G =
    [true, false, false, false, false, false, true, false, false, true, true, false, false, false, false, false, true, false, false, false,
     true, true, true, false, true, true, false, true, true, false, true, true, true] := ⟨_, rfl⟩
  have hP : bits crcPoly = G ++ List.replicate 7 false := by rw [hG]; exact crcPoly_bits
  have lG : G.length = 33 := by rw [hG]; rfl
  refine ⟨List.zipWith (· ^^^ ·) m crcPoly, X, List.zipWith xor X G, t, ?_, ?_, ?_, lX, ?_, ?_, ?_⟩
  · rw [List.length_zipWith, hm]; rfl
  · rw [happ, happ, hsplit]; simp only [List.append_assoc]
  · rw [happ, happ, hx, hP, hsplit, List.zipWith_append (by rw [lX, lG]), ← lt, zipWith_xor_false]; simp only [List.append_assoc]
  · rw [List.length_zipWith, lX, lG]; rfl
  · intro h
    match X, lX with
    | x :: X, _ =>
      rw [hG, List.zipWith_cons_cons] at h
      simp at h
  · unfold Spec.crc32
    congr 2
    rw [happ, happ, happ, happ, List.foldl_append, List.foldl_append, List.foldl_append, List.foldl_append, hx]
    congr 1
    have := foldl_crcBit_xor (bits m) (bits crcPoly) (by rw [hb]; rfl) ((bits a).foldl crcBit 0xFFFFFFFF#32) 0#32
    rw [crcPoly_zero, BitVec.xor_zero, BitVec.xor_zero] at this
    exact this

/-- **C40**, the limit: 32 bits cannot be replaced by 33. Take an archive of stored entries as in `C40_burst`, an entry, its file `f` and
any five bytes of it: there is a file `f'` that differs from `f`, only there and only within 33 consecutive bits, such that with `f'` in the
place of `f` the entry reads without an error as what `f'` holds. -/
theorem C40_limit (cfg : Cfg) (codec : Codec) (e : Endian) (before rest : List (Bytes × AnyTensor)) (n : Bytes) (t : AnyTensor)
    (w₁ w : Writer) (h₁ : Writer.writeAll cfg codec before (Writer.newString STORED e) = (.ok (), w₁))
    (hw : Writer.writeAll cfg codec ((n, t) :: rest) w₁ = (.ok (), w))
    (hlen : w.str.length < 2 ^ 32) (hcount : (before ++ (n, t) :: rest).length < 65536)
    (hnames : ∀ p ∈ before ++ (n, t) :: rest, (storedName p.1).length < 65536)
    (hfile : ∀ f, saveToString cfg t.ops t.x e = .ok f → f.length < 2 ^ 32)
    (hlast : ∀ p ∈ rest, storedName p.1 ≠ storedName n) :
    ∃ w' f P Q, saveToString cfg t.ops t.x e = .ok f ∧ Writer.close w = (.ok (), w') ∧ w'.str = P ++ f ++ Q ∧
      ∀ k, k + 5 ≤ f.length → ∃ (f' : Bytes) (A X X' B : List Bool), f'.length = f.length ∧ f'.take k = f.take k ∧
        f'.drop (k + 5) = f.drop (k + 5) ∧ Spec.bits f = A ++ X ++ B ∧ Spec.bits f' = A ++ X' ++ B ∧
        X.length = 33 ∧ X'.length = 33 ∧ X ≠ X' ∧
        ∀ s : IStream, s = IStream.ofBytes (P ++ f' ++ Q) ∨ s = IStream.ofFile (P ++ f' ++ Q) → ∃ r, Reader.open s = .ok r ∧
          ∀ (calls : List RdCall) (name : Bytes), storedName name = storedName n →
            (∀ (α : Type) (ops : ElemOps α), (Reader.read cfg codec ops name (r.after cfg codec calls)).1 = loadFromString cfg ops f') ∧
            (Reader.peek cfg codec name (r.after cfg codec calls)).1 = peekString cfg f' := by
  obtain ⟨w', f, d, P, Q, a1, a2, a3, a4, -, a6⟩ := C64_replaced cfg codec e false before rest n t w₁ w h₁ hw hlen hcount hnames hfile hlast
  have hd := a4 rfl
  subst hd
  have hf := hfile d a1
  refine ⟨w', d, P, Q, a1, a2, a3, fun k hk => ?_⟩
  have hsp : d.take k ++ (d.drop k).take 5 ++ d.drop (k + 5) = d := by
    rw [List.append_assoc, ← List.drop_drop, List.take_append_drop, List.take_append_drop]
  obtain ⟨m', X, X', t', l1, l2, l3, l4, l5, l6, l7⟩ := crc_hole (d.take k) ((d.drop k).take 5) (d.drop (k + 5))
    (by rw [List.length_take, List.length_drop]; omega)
  rw [hsp] at l2 l7
  have lk : (d.take k).length = k := by rw [List.length_take]; omega
  have hl : (d.take k ++ m' ++ d.drop (k + 5)).length = d.length := by
    rw [List.length_append, List.length_append, lk, l1, List.length_drop]; omega
  refine ⟨d.take k ++ m' ++ d.drop (k + 5), _, X, X', _, hl, ?_, ?_, l2, l3, l4, l5, l6, ?_⟩
  · rw [List.append_assoc, List.take_left' lk]
  · rw [List.drop_left' (by rw [List.length_append, lk, l1])]
  · intro s hs
    obtain ⟨r, r₀, o1, -, o3⟩ := a6 _ hl s hs
    refine ⟨r, o1, fun calls name hname => ?_⟩
    exact ((o3 calls).1 name hname).agrees _ rfl (by rw [hl]; exact hf) l7

/-- The strings of `exPuts`, with the bytes 128 to 132 of their file changed: the entry reads without an error. -/
example : ∃ w w' P Q f', Writer.writeAll exCfg noCodec exPuts (Writer.newString STORED .little) = (.ok (), w) ∧
    Writer.close w = (.ok (), w') ∧ w'.str = P ++ exFile ++ Q ∧ f' ≠ exFile ∧ f'.take 128 = exFile.take 128 ∧
    ∃ r, Reader.open (IStream.ofBytes (P ++ f' ++ Q)) = .ok r ∧
      (Reader.read exCfg noCodec wideOps b!"y" r).1 = loadFromString exCfg wideOps f' := by
  obtain ⟨w, h1, -⟩ := C30_npz_roundtrip exCfg noCodec .little exPuts exPuts_storable
  have hw : w = (Writer.writeAll exCfg noCodec exPuts (Writer.newString STORED .little)).2 := by rw [h1]
  obtain ⟨w₁, h2, h3⟩ := writeAll_append [(b!"x", ⟨Elem, fixedOps .int16, exTensor⟩)]
    [(b!"y.npy", ⟨WStr, wideOps, exWide⟩), (b!"x.npy", ⟨Elem, fixedOps .float64, exTensor2⟩)] h1
  obtain ⟨w', f, P, Q, a1, a2, a3, a4⟩ := C40_limit exCfg noCodec .little _ _ _ _ w₁ w h2 h3 (by rw [hw]; decide +kernel)
    (by decide) (by decide) (exPuts_files (b!"y.npy", ⟨WStr, wideOps, exWide⟩) (by simp [exPuts])) (by decide)
  have hf : f = exFile := by unfold exFile; rw [a1]; rfl
  subst hf
  have hl : 128 + 5 ≤ exFile.length := by decide +kernel
  generalize exFile = f at *
  obtain ⟨f', A, X, X', B, -, b2, -, b4, b5, b6, b7, b8, b9⟩ := a4 128 hl
  obtain ⟨r, r1, r2⟩ := b9 _ (.inl rfl)
  refine ⟨w, w', P, Q, f', h1, a2, a3, ?_, b2, r, r1, (r2 [] b!"y" (by decide)).1 _ _⟩
  rintro rfl
  rw [b4] at b5
  have := List.append_inj_left b5 (by rw [List.length_append, List.length_append, b6, b7])
  exact b8 (List.append_cancel_left this)

/-! ### C39: the recorded size -/

/-- `exTwo` with the uncompressed size of `a` made larger by 1024 in both its headers. -/
@[irreducible] def exTwoSize : Bytes := (exTwo.set 23 4).set (Spec.leAt exTwo (exTwo.length - 6) 4 + 25) 4

/-- **C39** says nothing of the uncompressed size, and could not: a reader returns an entry whose length is not the uncompressed size that
both its headers record. -/
theorem C39_size_false : ∃ (b : Bytes) (r : Reader) (bytes : Bytes) (method crc csize usize p q : Nat),
    Reader.open (IStream.ofBytes b) = .ok r ∧
    (Reader.readFile noCodec b!"a" r).1 = .ok bytes ∧ (Reader.read exCfg noCodec (fixedOps .int16) b!"a" r).1 = .ok exTensor ∧
    Spec.CentralAt b p b!"a.npy" method crc csize usize q ∧ Spec.LocalAt b q b!"a.npy" method crc csize usize ∧
    bytes.length ≠ usize := by
  have h1 : Reader.open (IStream.ofBytes exTwoSize) = .ok (exReader exTwoSize) := by decide +kernel
  have h2 : (Reader.readFile noCodec b!"a" (exReader exTwoSize)).1 = saveToString exCfg (fixedOps .int16) exTensor .little := by
    decide +kernel
  have h3 : (Reader.read exCfg noCodec (fixedOps .int16) b!"a" (exReader exTwoSize)).1 = .ok exTensor := by decide +kernel
  obtain ⟨bytes, h4, h5⟩ : ∃ bytes, saveToString exCfg (fixedOps .int16) exTensor .little = .ok bytes ∧ bytes.length = 140 :=
    ⟨(saveToString exCfg (fixedOps .int16) exTensor .little).toOption.getD [], by decide +kernel, by decide +kernel⟩
  rw [h4] at h2
  obtain ⟨p, hp⟩ : ∃ p, p = leAt exTwoSize (exTwoSize.length - 6) 4 := ⟨_, rfl⟩
  have c1 : (exTwoSize.drop p).take 4 = [0x50, 0x4B, 1, 2] := by rw [hp]; decide +kernel
  have c2 : leAt exTwoSize (p + 6) 2 ≤ 45 := by rw [hp]; decide +kernel
  have c3 : leAt exTwoSize (p + 10) 2 = 0 := by rw [hp]; decide +kernel
  have c4 : leAt exTwoSize (p + 16) 4 = leAt exTwoSize 14 4 := by rw [hp]; decide +kernel
  have c5 : leAt exTwoSize (p + 28) 2 = 5 := by rw [hp]; decide +kernel
  have c6 : (exTwoSize.drop (p + 46)).take 5 = b!"a.npy" := by rw [hp]; decide +kernel
  have c7 : leAt exTwoSize (p + 30) 2 = 0 := by rw [hp]; decide +kernel
  have c8 : [leAt exTwoSize (p + 24) 4, leAt exTwoSize (p + 20) 4, leAt exTwoSize (p + 42) 4] = [1164, 140, 0] := by
    rw [hp]; decide +kernel
  have l1 : (exTwoSize.drop 0).take 4 = [0x50, 0x4B, 3, 4] := by decide +kernel
  have l2 : leAt exTwoSize 4 2 ≤ 45 := by decide +kernel
  have l3 : leAt exTwoSize 8 2 = 0 := by decide +kernel
  have l5 : leAt exTwoSize 26 2 = 5 := by decide +kernel
  have l6 : (exTwoSize.drop 30).take 5 = b!"a.npy" := by decide +kernel
  have l7 : leAt exTwoSize 28 2 = 0 := by decide +kernel
  have l8 : [leAt exTwoSize 22 4, leAt exTwoSize 18 4] = [1164, 140] := by decide +kernel
  generalize exReader exTwoSize = r at *
  generalize exTwoSize = b at *
  refine ⟨b, r, bytes, 0, leAt b 14 4, 140, 1164, p, 0, h1, h2, h3, ⟨c1, c2, c3, c4, c5, fun _ => c6, ?_⟩,
    ⟨l1, l2, l3, by rw [Nat.zero_add], l5, fun _ => l6, ?_⟩, by rw [h5]; decide⟩
  · rw [c7, c8]
    rfl
  · rw [Nat.zero_add, Nat.zero_add, Nat.zero_add, l7, l8]
    rfl

end Npy
