import Verif.Proofs.DeflJunk
/-!
# More rounds, or unchecked assertions, do not change what the compressor makes
-/

namespace Npy

/-- A result that is reached is the same in the second program. -/
def Stays {α : Type} (x y : Except Err α) : Prop := ∀ a, x = .ok a → y = .ok a

theorem stays_refl {α : Type} (x : Except Err α) : Stays x x := fun _ h => h

theorem stays_error {α : Type} (e : Err) (y : Except Err α) : Stays (.error e) y := fun _ h => by simp at h

theorem stays_bind {α β : Type} {x x' : Except Err α} {f f' : α → Except Err β} (h : Stays x x') (hf : ∀ a, Stays (f a) (f' a)) :
    Stays (x >>= f) (x' >>= f') := by
  intro b hb
  cases x with
  | error e => cases hb
  | ok a =>
    rw [h a rfl]
    exact hf a b hb

theorem stays_assert (dbg : Bool) (c : Prop) [Decidable c] : Stays (mzAssert dbg c) (mzAssert false c) := by
  intro a _
  simp [mzAssert]

theorem stays_check (dbg : Bool) (w : BitOut) : Stays (w.check dbg) (w.check false) := by
  intro a h
  rw [BitOut.check] at h ⊢
  split at h
  · simp at h
  · simpa using h

theorem lzLoop_stays (big dbg : Bool) (lit dist : HuffCode) (f flags : Nat) (p : Bytes) (w : BitOut) :
    Stays (lzLoop big dbg lit dist f flags p w) (lzLoop big false lit dist f flags p w) := by
  induction f generalizing flags p w with
  | zero => exact stays_error _ _
  | succ f ih =>
    rw [lzLoop, lzLoop]
    split
    · exact stays_refl _
    · split
      · exact stays_error _ _
      · rename_i flags p w _
        have hm := stays_check dbg w
        revert hm
        generalize w.check dbg = x
        intro hm
        cases x with
        | error e => exact stays_error _ _
        | ok a =>
          rw [hm a rfl]
          dsimp only
          split
          · exact stays_error _ _
          · exact stays_refl _
          · exact ih _ _ _

theorem compressLzCodes_stays (big dbg : Bool) (lit dist : HuffCode) (codes : Bytes) (w : BitOut) :
    Stays (compressLzCodes big dbg lit dist codes w) (compressLzCodes big false lit dist codes w) := by
  unfold compressLzCodes
  have hm := lzLoop_stays big dbg lit dist (codes.length + 1) 1 codes w
  revert hm
  generalize lzLoop big dbg lit dist (codes.length + 1) 1 codes w = x
  intro hm
  cases x with
  | error e => exact stays_error _ _
  | ok a =>
    rw [hm a rfl]
    cases a with
    | none => exact stays_refl _
    | some w' =>
      dsimp only
      generalize BitOut.putSym _ lit 256 = u
      have hm := stays_check dbg u
      revert hm
      generalize u.check dbg = x
      intro hm
      cases x with
      | error e => exact stays_error _ _
      | ok a => rw [hm a rfl]; exact stays_refl _

theorem compressBlock_stays (big dbg : Bool) (lc dc : Nat → Nat) (codes : Bytes) (st : Bool) (w : BitOut) :
    Stays (compressBlock big dbg lc dc codes st w) (compressBlock big false lc dc codes st w) := by
  unfold compressBlock
  dsimp only
  split
  · exact stays_bind (stays_refl _) fun _ => compressLzCodes_stays big dbg _ _ _ _
  · exact stays_bind (stays_refl _) fun _ => compressLzCodes_stays big dbg _ _ _ _

theorem putBlock_stays (big dbg : Bool) (d : Tdefl) (saved : BitOut) : Stays (putBlock big dbg d saved) (putBlock big false d saved) := by
  unfold putBlock
  refine stays_bind (compressBlock_stays big dbg _ _ _ _ _) fun a => ?_
  dsimp only
  split
  · exact stays_refl _
  split
  · exact stays_refl _
  exact stays_bind (compressBlock_stays big dbg _ _ _ _ _) fun _ => stays_refl _

theorem flushBlock_stays (big dbg : Bool) (j : Junk) (fin : Bool) (room : Nat) (d : Tdefl) :
    Stays (flushBlock big dbg j fin room d) (flushBlock big false j fin room d) := by
  unfold flushBlock
  refine stays_bind (stays_assert _ _) fun _ => ?_
  refine stays_bind (putBlock_stays _ _ _ _) fun _ => ?_
  refine stays_bind (stays_check _ _) fun _ => ?_
  exact stays_bind (stays_assert _ _) fun _ => stays_refl _

theorem findMatch_stays (dbg : Bool) (d : Tdefl) (n : Nat) : Stays (findMatch dbg d n) (findMatch false d n) := by
  unfold findMatch
  refine stays_bind (stays_refl _) fun _ => ?_
  refine stays_bind (stays_refl _) fun _ => ?_
  exact stays_bind (stays_assert _ _) fun _ => stays_refl _

theorem recordMatch_stays (dbg : Bool) (j : Junk) (len dist : Nat) (d : Tdefl) :
    Stays (recordMatch dbg j len dist d) (recordMatch false j len dist d) := by
  unfold recordMatch
  exact stays_bind (stays_assert _ _) fun _ => stays_refl _

theorem parseStep_stays (dbg : Bool) (j : Junk) (m : Nat × Nat) (d : Tdefl) : Stays (parseStep dbg j m d) (parseStep false j m d) := by
  unfold parseStep
  dsimp only
  split
  · split
    · refine stays_bind (stays_refl _) fun _ => ?_
      split
      · exact stays_bind (recordMatch_stays _ _ _ _ _) fun _ => stays_refl _
      · exact stays_refl _
    · exact stays_bind (recordMatch_stays _ _ _ _ _) fun _ => stays_refl _
  · split
    · exact stays_refl _
    · split
      · exact stays_bind (recordMatch_stays _ _ _ _ _) fun _ => stays_refl _
      · exact stays_refl _

theorem matchStep_stays (dbg : Bool) (j : Junk) (d : Tdefl) : Stays (matchStep dbg j d) (matchStep false j d) := by
  unfold matchStep
  refine stays_bind (findMatch_stays _ _ _) fun _ => ?_
  refine stays_bind (parseStep_stays _ _ _ _) fun _ => ?_
  exact stays_bind (stays_assert _ _) fun _ => stays_refl _

theorem compressNormal_mono (j : Junk) (fin : Bool) (outSize f f' : Nat) (h : f ≤ f') (src out : Bytes) (d : Tdefl) :
    Stays (compressNormal false dbg j fin outSize f src out d) (compressNormal false false j fin outSize f' src out d) := by
  induction f generalizing f' src out d with
  | zero => exact stays_error _ _
  | succ f ih =>
    obtain ⟨f', rfl⟩ : ∃ k, f' = k + 1 := ⟨f' - 1, by omega⟩
    rw [compressNormal_succ, compressNormal_succ]
    split
    · dsimp only
      split
      · exact stays_refl _
      · split
        · exact stays_error _ _
        · rename_i d₁ hd
          rw [matchStep_stays dbg j _ _ hd]
          dsimp only
          split
          · split
            · exact stays_error _ _
            · rename_i o d₂ hb
              rw [flushBlock_stays false dbg j _ _ _ _ hb]
              dsimp only
              split
              · exact stays_refl _
              · exact ih f' (by omega) _ _ _
          · exact ih f' (by omega) _ _ _
    · exact stays_refl _

theorem finishUp_stays (big dbg : Bool) (j : Junk) (fin : Bool) (outSize : Nat) (src out : Bytes) (d : Tdefl) :
    Stays (finishUp big dbg j fin outSize src out d) (finishUp big false j fin outSize src out d) := by
  unfold finishUp
  split
  · have hm := flushBlock_stays big dbg j true (outSize - out.length) d
    revert hm
    generalize flushBlock big dbg j true (outSize - out.length) d = x
    intro hm
    cases x with
    | error e => exact stays_error _ _
    | ok a => rw [hm a rfl]; exact stays_refl _
  · exact stays_refl _

theorem tdefl_mono (j : Junk) (f f' : Nat) (h : f ≤ f') (fin : Bool) (outSize : Nat) (src : Bytes) (prev : TdStatus) (d : Tdefl) :
    Stays (tdeflCompress false dbg j f fin outSize src prev d) (tdeflCompress false false j f' fin outSize src prev d) := by
  unfold tdeflCompress
  split
  · exact stays_refl _
  · dsimp only
    split
    · exact stays_refl _
    · have hm := compressNormal_mono (dbg := dbg) j fin outSize f f' h src [] { d with wantsToFinish := d.wantsToFinish || fin }
      revert hm
      generalize compressNormal false dbg j fin outSize f src [] { d with wantsToFinish := d.wantsToFinish || fin } = x
      intro hm
      cases x with
      | error e => exact stays_error _ _
      | ok a =>
        rw [hm a rfl]
        obtain ⟨src, out, d⟩ := a
        dsimp only
        have hm := finishUp_stays false dbg j fin outSize src out d
        revert hm
        generalize finishUp false dbg j fin outSize src out d = x
        intro hm
        cases x with
        | error e => exact stays_error _ _
        | ok a => rw [hm a rfl]; exact stays_refl _

theorem mzDeflateLoop_mono (j : Junk) (fu fu' : Nat) (hu : fu ≤ fu') (fin : Bool) (oi oo f f' : Nat) (h : f ≤ f') (s : DeflStream) :
    Stays (mzDeflateLoop false dbg j fu fin oi oo f s) (mzDeflateLoop false false j fu' fin oi oo f' s) := by
  induction f generalizing f' s with
  | zero => exact stays_error _ _
  | succ f ih =>
    obtain ⟨f', rfl⟩ : ∃ k, f' = k + 1 := ⟨f' - 1, by omega⟩
    rw [mzDeflateLoop, mzDeflateLoop]
    have hm := tdefl_mono (dbg := dbg) j fu fu' hu fin s.availOut s.inp s.prev s.d
    revert hm
    generalize tdeflCompress false dbg j fu fin s.availOut s.inp s.prev s.d = x
    intro hm
    cases x with
    | error e => exact stays_error _ _
    | ok a =>
      rw [hm a rfl]
      obtain ⟨r, o, g, st⟩ := a
      dsimp only
      split
      · exact stays_refl _
      split
      · exact stays_refl _
      split
      · exact stays_refl _
      split
      · exact stays_refl _
      · exact ih f' (by omega) _

theorem mzDeflate_mono (j : Junk) (fu fu' : Nat) (hu : fu ≤ fu') (fin : Bool) (s : DeflStream) :
    Stays (mzDeflate false dbg j fu fin s) (mzDeflate false false j fu' fin s) := by
  unfold mzDeflate
  split
  · exact stays_refl _
  split
  · exact stays_refl _
  exact mzDeflateLoop_mono j fu fu' hu fin _ _ fu fu' hu s

theorem inner_mono (dbg : Bool) (j : Junk) (fu fu' : Nat) (hu : fu ≤ fu') (fin : Bool) (f f' : Nat) (h : f ≤ f') (s : DeflStream)
    (output : Bytes) : Stays (npyDeflateInner false dbg j fu fin f s output) (npyDeflateInner false false j fu' fin f' s output) := by
  induction f generalizing f' s output with
  | zero => exact stays_error _ _
  | succ f ih =>
    obtain ⟨f', rfl⟩ : ∃ k, f' = k + 1 := ⟨f' - 1, by omega⟩
    rw [npyDeflateInner, npyDeflateInner]
    have hm := mzDeflate_mono (dbg := dbg) j fu fu' hu fin { s with availOut := CHUNK, out := [] }
    revert hm
    generalize mzDeflate false dbg j fu fin { s with availOut := CHUNK, out := [] } = x
    intro hm
    cases x with
    | error e => exact stays_error _ _
    | ok a =>
      rw [hm a rfl]
      obtain ⟨ret, g⟩ := a
      dsimp only
      rw [if_neg (show ¬(false = true ∧ ret = .dataError) by simp), if_neg (show ¬(false = true ∧ g.inp ≠ []) by simp)]
      split
      · exact stays_error _ _
      split
      · exact ih f' (by omega) _ _
      split
      · exact stays_error _ _
      · exact stays_refl _

theorem outer_mono (dbg : Bool) (j : Junk) (fu fu' : Nat) (hu : fu ≤ fu') (f f' : Nat) (h : f ≤ f') (s : DeflStream) (st : IStream)
    (output : Bytes) : Stays (npyDeflateOuter false dbg j fu f s st output) (npyDeflateOuter false false j fu' f' s st output) := by
  induction f generalizing f' s st output with
  | zero => exact stays_error _ _
  | succ f ih =>
    obtain ⟨f', rfl⟩ : ∃ k, f' = k + 1 := ⟨f' - 1, by omega⟩
    rw [npyDeflateOuter, npyDeflateOuter]
    generalize IStream.read CHUNK st = x
    obtain ⟨r, st'⟩ := x
    cases r with
    | error e => exact stays_error _ _
    | ok chunk =>
      dsimp only
      have hm := inner_mono dbg j fu fu' hu st'.eof fu fu' hu { s with inp := chunk } output
      revert hm
      generalize npyDeflateInner false dbg j fu st'.eof fu { s with inp := chunk } output = x
      intro hm
      cases x with
      | error e => exact stays_error _ _
      | ok a =>
        rw [hm a rfl]
        obtain ⟨ret, g, o⟩ := a
        dsimp only
        rw [if_neg (show ¬(false = true ∧ ret ≠ .streamEnd) by simp)]
        split
        · split
          · exact stays_error _ _
          · exact stays_refl _
        · exact ih f' (by omega) _ _ _

/-- What a build that checks assertions makes is made by every build, with any larger number of rounds. -/
theorem npyDeflate_stays (dbg : Bool) (j : Junk) (fuel fuel' : Nat) (h : fuel ≤ fuel') (input z : Bytes)
    (hz : npyDeflate false dbg j fuel input = .ok z) : npyDeflate false false j fuel' input = .ok z :=
  outer_mono dbg j fuel fuel' h fuel fuel' h _ _ _ z hz

/-- The result of `npy_deflate` is a function of its input. -/
theorem npyDeflate_same (dbg dbg' : Bool) (j j' : Junk) (fuel fuel' : Nat) (input : Bytes) (h : input.length < 2 ^ 32)
    (hf : input.length + 260 ≤ fuel) (hf' : input.length + 260 ≤ fuel') :
    npyDeflate false dbg j fuel input = npyDeflate false dbg' j' fuel' input := by
  have key : ∀ (dbg : Bool) (j : Junk) (fuel : Nat), input.length + 260 ≤ fuel →
      npyDeflate false dbg j fuel input = npyDeflate false true j' (input.length + 260) input := by
    intro dbg j fuel hf
    obtain ⟨z, h1, -⟩ := npyDeflate_ok dbg j fuel input h hf
    obtain ⟨z', h2, -⟩ := npyDeflate_ok true j (input.length + 260) input h (Nat.le_refl _)
    have k1 := npyDeflate_stays dbg j fuel fuel (Nat.le_refl _) input z h1
    have k2 := npyDeflate_stays true j (input.length + 260) fuel hf input z' h2
    rw [npyDeflate_junk j' j (input.length + 260) input h (Nat.le_refl _), h1, h2, ← k1, ← k2]
  rw [key dbg j fuel hf, key dbg' j' fuel' hf']

end Npy
