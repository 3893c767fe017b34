import Verif.Model.Deflate
/-!
# What the checked accesses of the compressor compute

The model stops with an error where the program would leave an array. Here are the same functions without the checks; the lemmas
say that the checks succeed.
-/

namespace Npy

theorem rdArr_ok {α : Type} {size : Nat} (f : Nat → α) {i : Nat} (h : i < size) : rdArr size f i = .ok (f i) := by
  rw [rdArr, if_pos h]

theorem wrArr_ok {α : Type} {size : Nat} (f : Nat → α) {i : Nat} (v : α) (h : i < size) :
    wrArr size f i v = .ok (setAt f i v) := by
  rw [wrArr, if_pos h]

theorem inArr_ok {c : Prop} [Decidable c] (h : c) : inArr c = .ok () := by rw [inArr, if_pos h]

theorem ok_bind {α β : Type} (a : α) (f : α → Except Err β) : (Except.ok a >>= f) = f a := rfl

/-! ### Sorting -/

def radixScatterP (shift : Nat) (l : List SymFreq) (a : (Nat → Nat) × (Nat → SymFreq)) : (Nat → Nat) × (Nat → SymFreq) :=
  l.foldl (fun a s => (setAt a.1 (radixByte shift s) (a.1 (radixByte shift s) + 1),
    setAt a.2 (a.1 (radixByte shift s)) s)) a

def radixPassP (shift : Nat) (hist : Nat → Nat) (new : Nat → SymFreq) (l : List SymFreq) : List SymFreq :=
  (List.range l.length).map (radixScatterP shift l ((radixOffsets hist 256).1, new)).2

def radixSortP (l : List SymFreq) : List SymFreq :=
  let first := radixPassP 0 (radixHist 0 l) (fun _ => ⟨0, 0⟩) l
  if l.length = radixHist 8 l 0 then first else radixPassP 8 (radixHist 8 l) (fun _ => ⟨0, 0⟩) first

/-! ### Huffman trees -/

def mrFirstP (n next : Nat) (s : MrState) : MrState :=
  if s.leaf ≥ n ∨ s.A s.root < s.A s.leaf then
    { A := setAt (setAt s.A next (s.A s.root)) s.root (next % 65536), root := s.root + 1, leaf := s.leaf }
  else { A := setAt s.A next (s.A s.leaf), root := s.root, leaf := s.leaf + 1 }

def mrSecondP (n next : Nat) (s : MrState) : MrState :=
  if s.leaf ≥ n ∨ (s.root < next ∧ s.A s.root < s.A s.leaf) then
    { A := setAt (setAt s.A next ((s.A next + s.A s.root) % 65536)) s.root (next % 65536), root := s.root + 1,
      leaf := s.leaf }
  else { A := setAt s.A next ((s.A next + s.A s.leaf) % 65536), root := s.root, leaf := s.leaf + 1 }

def mrTreeP (n : Nat) : Nat → Nat → MrState → MrState
  | 0, _, s => s
  | k + 1, next, s => mrTreeP n k (next + 1) (mrSecondP n next (mrFirstP n next s))

def mrDepthsP : Nat → (Nat → Nat) → (Nat → Nat)
  | 0, A => A
  | k + 1, A => mrDepthsP k (setAt A k ((A (A k) + 1) % 65536))

theorem mrFirst_pure {n next : Nat} {s : MrState} (h1 : s.root < n) (h2 : next < n) :
    mrFirst n next s = .ok (mrFirstP n next s) := by
  unfold mrFirst mrFirstP
  by_cases hl : s.leaf ≥ n
  · rw [if_pos hl, if_pos (.inl hl)]
    simp only [pure, Except.pure, ok_bind, if_true, rdArr_ok _ h1, wrArr_ok _ _ h1, wrArr_ok _ _ h2]
  · have hl' : s.leaf < n := by omega
    rw [if_neg hl]
    simp only [pure, Except.pure, rdArr_ok _ h1, rdArr_ok _ hl', ok_bind, wrArr_ok _ _ h1, wrArr_ok _ _ h2, decide_eq_true_eq]
    by_cases hc : s.A s.root < s.A s.leaf
    · rw [if_pos hc, if_pos (.inr hc)]
    · rw [if_neg hc, if_neg (by simp [hl, hc])]

theorem mrSecond_pure {n next : Nat} {s : MrState} (h1 : s.root < n) (h2 : next < n) :
    mrSecond n next s = .ok (mrSecondP n next s) := by
  unfold mrSecond mrSecondP
  by_cases hl : s.leaf ≥ n
  · rw [if_pos hl, if_pos (.inl hl)]
    simp only [pure, Except.pure, ok_bind, if_true, rdArr_ok _ h1, rdArr_ok _ h2, wrArr_ok _ _ h1, wrArr_ok _ _ h2]
  · have hl' : s.leaf < n := by omega
    rw [if_neg hl]
    by_cases hr : s.root < next
    · rw [if_pos hr]
      simp only [pure, Except.pure, rdArr_ok _ h1, rdArr_ok _ hl', rdArr_ok _ h2, ok_bind, wrArr_ok _ _ h1, wrArr_ok _ _ h2,
        decide_eq_true_eq]
      by_cases hc : s.A s.root < s.A s.leaf
      · rw [if_pos hc, if_pos (.inr ⟨hr, hc⟩)]
      · rw [if_neg hc, if_neg (by simp [hl, hc])]
    · rw [if_neg hr]
      simp only [pure, Except.pure, rdArr_ok _ hl', rdArr_ok _ h2, ok_bind, wrArr_ok _ _ h2]
      rw [if_neg (by simp), if_neg (by simp [hl, hr])]

/-! ### Output -/

def BitOut.store64P (w : BitOut) : Option BitOut :=
  if w.out.length ≥ OUT_LIMIT then none
  else some { w with out := w.out ++ leTake (w.n >>> 3) w.buf, buf := w.buf >>> (w.n - w.n % 8), n := w.n % 8 }

theorem BitOut.store64_pure (w : BitOut) : w.store64 false = .ok w.store64P := by
  rw [BitOut.store64, BitOut.store64P]
  by_cases h : w.out.length ≥ OUT_LIMIT
  · rw [if_pos h, if_pos h]; rfl
  · rw [if_neg h, if_neg h, inArr_ok (by unfold OUT_LIMIT at h; unfold OUT_BUF_SIZE at *; omega), ok_bind]; rfl

/-! ### The dictionary -/

def bumpP (count : Nat → Nat) (s : Nat) : Nat → Nat :=
  setAt count s ((count s + 1) % 65536)

theorem bump_pure {size : Nat} {count : Nat → Nat} {s : Nat} (h : s < size) : bump size count s = .ok (bumpP count s) := by
  rw [bump, rdArr_ok _ h]
  exact wrArr_ok _ _ h

theorem recordLiteral_pure (j : Junk) (lit : UInt8) (d : Tdefl) : recordLiteral j lit d = (do
    let lz ← d.lz.record j [lit] false
    pure { d with
      totalLzBytes := (d.totalLzBytes + 1) % 2 ^ 32, lz := lz,
      litCount := bumpP d.litCount lit.toNat }) := by
  rw [recordLiteral, bump_pure (by have := lit.toNat_lt; omega)]
  rfl

theorem getD_lt {l : List Nat} {n : Nat} (h : ∀ x ∈ l, x < n) (h0 : 0 < n) (i : Nat) : l.getD i 0 < n := by
  by_cases hi : i < l.length
  · rw [List.getD_eq_getElem?_getD, List.getElem?_eq_getElem hi]
    exact h _ (List.getElem_mem hi)
  · rw [List.getD_eq_getElem?_getD, List.getElem?_eq_none (by omega)]
    exact h0

theorem distSym_lt (x : Nat) : distSym x < 32 := by
  unfold distSym
  split
  · exact getD_lt (by decide +kernel) (by decide) _
  · exact getD_lt (by decide +kernel) (by decide) _

theorem lenSym_lt (x : Nat) : lenSymTab.getD x 0 < 288 := getD_lt (by decide +kernel) (by decide) _

theorem mzAssert_ok {dbg : Bool} {c : Prop} [Decidable c] (h : c) : mzAssert dbg c = .ok () := if_pos (.inr h)

theorem recordMatch_pure (j : Junk) {len : Nat} (dist : Nat) (d : Tdefl) (h : len ≤ 258) : recordMatch dbg j len dist d = (do
    mzAssert dbg (3 ≤ len ∧ 1 ≤ dist ∧ dist ≤ 32768)
    let lz ← d.lz.record j [UInt8.ofNat (len - 3), UInt8.ofNat ((dist - 1) &&& 0xFF), UInt8.ofNat ((dist - 1) >>> 8)] true
    let s := distSym (dist - 1)
    let l := lenSymTab.getD (len - 3) 0
    let d := { d with
      totalLzBytes := (d.totalLzBytes + len) % 2 ^ 32, lz := lz, distCount := bumpP d.distCount s }
    if len ≥ 3 then pure { d with litCount := bumpP d.litCount l } else pure d) := by
  rw [recordMatch]
  simp only [bump_pure (distSym_lt _), rdArr_ok (size := 256) (fun i => lenSymTab.getD i 0) (show len - 3 < 256 by omega),
    bump_pure (lenSym_lt _), ok_bind]

def putDictP (dict : Nat → UInt8) (dst : Nat) (c : UInt8) : Nat → UInt8 :=
  if dst < 257 then setAt (setAt dict dst c) (32768 + dst) c else setAt dict dst c

theorem putDict_pure (dict : Nat → UInt8) {dst : Nat} (c : UInt8) (h : dst < 32768) :
    putDict dict dst c = .ok (putDictP dict dst c) := by
  rw [putDict, wrArr_ok _ _ (by omega), putDictP, ok_bind]
  by_cases h2 : dst < 257
  · rw [if_pos h2, if_pos h2, wrArr_ok _ _ (by omega)]
  · rw [if_neg h2, if_neg h2]
    rfl

def insertHashP (h ins : Nat) (d : Tdefl) : Tdefl :=
  { d with next := setAt d.next (ins % 32768) (d.hash h), hash := setAt d.hash h (ins % 65536) }

theorem insertHash_pure {h : Nat} (ins : Nat) (d : Tdefl) (hh : h < 32768) :
    insertHash h ins d = .ok (insertHashP h ins d) := by
  have hi : ins % 32768 < 32768 := Nat.mod_lt _ (by decide)
  simp only [insertHash, rdArr_ok _ hh, wrArr_ok _ _ hi, wrArr_ok _ _ hh, ok_bind]
  rfl

def fillFastP : Bytes → (dst ins hash : Nat) → Tdefl → Tdefl
  | [], _, _, _, d => d
  | c :: cs, dst, ins, hash, d =>
    let h := ((hash <<< 5) ^^^ c.toNat) % 32768
    fillFastP cs ((dst + 1) % 32768) (ins + 1) h (insertHashP h ins { d with dict := putDictP d.dict dst c })

theorem fillFast_pure (cs : Bytes) (dst ins hash : Nat) (d : Tdefl) (h : dst < 32768) :
    fillFast cs dst ins hash d = .ok (fillFastP cs dst ins hash d) := by
  induction cs generalizing dst ins hash d with
  | nil => rfl
  | cons c cs ih =>
    have hh : ((hash <<< 5) ^^^ c.toNat) % 32768 < 32768 := Nat.mod_lt _ (by decide)
    rw [fillFast, fillFastP, putDict_pure _ _ h, ok_bind]
    simp only [insertHash_pure _ _ hh, ok_bind]
    exact ih _ _ _ _ (Nat.mod_lt _ (by decide))

def fillSlowP : Bytes → Tdefl → Bytes × Tdefl
  | [], d => ([], d)
  | c :: src, d =>
    if d.lookaheadSize < 258 then
      let dst := (d.lookaheadPos + d.lookaheadSize) % 32768
      let d := { d with dict := putDictP d.dict dst c, lookaheadSize := d.lookaheadSize + 1 }
      if d.lookaheadSize + d.dictSize ≥ 3 then
        let ins := d.lookaheadPos + (d.lookaheadSize - 1) - 2
        let h := (((d.dict (ins % 32768)).toNat <<< 10) ^^^ ((d.dict ((ins + 1) % 32768)).toNat <<< 5) ^^^ c.toNat) % 32768
        fillSlowP src (insertHashP h ins d)
      else fillSlowP src d
    else (c :: src, d)

theorem rdDict_pure (dict : Nat → UInt8) (i : Nat) : rdDict dict (i % 32768) = .ok (dict (i % 32768)) := by
  rw [rdDict, if_pos (by have : i % 32768 < 32768 := Nat.mod_lt _ (by decide)
                         omega)]

theorem fillSlow_pure (src : Bytes) (d : Tdefl) : fillSlow src d = .ok (fillSlowP src d) := by
  induction src generalizing d with
  | nil => rfl
  | cons c src ih =>
    rw [fillSlow, fillSlowP]
    by_cases h : d.lookaheadSize < 258
    · rw [if_pos h, if_pos h, putDict_pure _ _ (Nat.mod_lt _ (by decide)), ok_bind]
      dsimp only
      by_cases h3 : d.lookaheadSize + 1 + d.dictSize ≥ 3
      · rw [if_pos h3, if_pos h3, rdDict_pure, ok_bind, rdDict_pure, ok_bind,
          insertHash_pure _ _ (Nat.mod_lt _ (by decide)), ok_bind]
        exact ih _
      · rw [if_neg h3, if_neg h3]
        exact ih _
    · rw [if_neg h, if_neg h]

def fillP (src : Bytes) (d : Tdefl) : Bytes × Tdefl :=
  if d.lookaheadSize + d.dictSize ≥ 2 then
    let dst := (d.lookaheadPos + d.lookaheadSize) % 32768
    let ins := d.lookaheadPos + d.lookaheadSize - 2
    let hash := ((d.dict (ins % 32768)).toNat <<< 5) ^^^ (d.dict ((ins + 1) % 32768)).toNat
    let n := min src.length (258 - d.lookaheadSize)
    let d' := fillFastP (src.take n) dst ins hash d
    (src.drop n, { d' with lookaheadSize := d.lookaheadSize + n })
  else fillSlowP src d

theorem fill_pure (src : Bytes) (d : Tdefl) : fill src d = .ok (fillP src d) := by
  rw [fill, fillP]
  by_cases h : d.lookaheadSize + d.dictSize ≥ 2
  · rw [if_pos h, if_pos h]
    dsimp only
    rw [rdDict_pure, ok_bind, rdDict_pure, ok_bind, fillFast_pure _ _ _ _ _ (Nat.mod_lt _ (by decide)), ok_bind]
    rfl
  · rw [if_neg h, if_neg h]
    exact fillSlow_pure _ _

theorem compressNormal_succ (j : Junk) (fin : Bool) (outSize f : Nat) (src out : Bytes) (d : Tdefl) :
    compressNormal false dbg j fin outSize (f + 1) src out d =
    if src ≠ [] ∨ (fin ∧ d.lookaheadSize ≠ 0) then
      let (src, d) := fillP src d
      let d := { d with dictSize := min (32768 - d.lookaheadSize) d.dictSize }
      if ¬fin ∧ d.lookaheadSize < 258 then .ok (src, out, d)
      else
        match matchStep dbg j d with
        | .error e => .error e
        | .ok d =>
          if flushDue d then
            match flushBlock false dbg j false (outSize - out.length) d with
            | .error e => .error e
            | .ok (o, d) =>
              if d.pending ≠ [] then .ok (src, out ++ o, d) else compressNormal false dbg j fin outSize f src (out ++ o) d
          else compressNormal false dbg j fin outSize f src out d
    else .ok (src, out, d) := by
  rw [compressNormal, fill_pure]
  generalize fillP src d = p
  obtain ⟨src', d'⟩ := p
  rfl

end Npy
