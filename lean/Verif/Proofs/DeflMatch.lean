import Verif.Proofs.DeflBlock
import Verif.Proofs.InflateStall
/-!
# The dictionary and the search for matches
-/

namespace Npy
open Spec.Deflate

/-- The dictionary holds the input from `lo` to `hi` (and a copy of its first 257 bytes behind its end). -/
structure Win (input : Bytes) (dict : Nat → UInt8) (lo hi : Nat) : Prop where
  le : lo ≤ hi
  size : hi ≤ lo + 32768
  fits : hi ≤ input.length
  cell : ∀ a, lo ≤ a → a < hi → input[a]? = some (dict (a % 32768))
  mirror : ∀ a, lo ≤ a → a < hi → a % 32768 < 257 → input[a]? = some (dict (32768 + a % 32768))

theorem Win.at {input : Bytes} {dict : Nat → UInt8} {lo hi : Nat} (h : Win input dict lo hi) {a i : Nat} (ha : lo ≤ a)
    (hi' : a + i < hi) (h257 : i ≤ 257) : input[a + i]? = some (dict (a % 32768 + i)) := by
  by_cases hc : a % 32768 + i < 32768
  · have : (a + i) % 32768 = a % 32768 + i := by omega
    rw [← this]
    exact h.cell _ (by omega) hi'
  · have : (a + i) % 32768 = a % 32768 + i - 32768 := by omega
    have e : a % 32768 + i = 32768 + (a + i) % 32768 := by omega
    rw [e]
    exact h.mirror _ (by omega) hi' (by omega)

theorem Win.mono {input : Bytes} {dict : Nat → UInt8} {lo hi lo' : Nat} (h : Win input dict lo hi) (h1 : lo ≤ lo')
    (h2 : lo' ≤ hi) : Win input dict lo' hi :=
  ⟨h2, by have := h.size; omega, h.fits, fun a ha => h.cell a (by omega), fun a ha => h.mirror a (by omega)⟩

theorem win_empty (input : Bytes) (dict : Nat → UInt8) (p : Nat) (h : p ≤ input.length) : Win input dict p p :=
  ⟨le_rfl, by omega, h, fun a h1 h2 => by omega, fun a h1 h2 => by omega⟩

theorem Win.put {input : Bytes} {dict : Nat → UInt8} {lo hi : Nat} (h : Win input dict lo hi) {c : UInt8}
    (hc : input[hi]? = some c) : Win input (putDictP dict (hi % 32768) c) (max lo (hi + 1 - 32768)) (hi + 1) := by
  have hlt : hi < input.length := by
    rw [List.getElem?_eq_some_iff] at hc
    exact hc.1
  have hs := h.size
  have hle := h.le
  have hold : ∀ a, max lo (hi + 1 - 32768) ≤ a → a < hi → a % 32768 ≠ hi % 32768 := by
    intro a h1 h2
    omega
  have hmod : hi % 32768 < 32768 := Nat.mod_lt _ (by norm_num)
  refine ⟨by omega, by omega, hlt, ?_, ?_⟩
  · intro a h1 h2
    by_cases ha : a = hi
    · subst ha
      unfold putDictP
      split
      · rw [setAt_ne _ _ (by omega), setAt_self, hc]
      · rw [setAt_self, hc]
    · have hn := hold a h1 (by omega)
      have hm : a % 32768 < 32768 := Nat.mod_lt _ (by norm_num)
      rw [h.cell a (by omega) (by omega)]
      unfold putDictP
      split
      · rw [setAt_ne _ _ (by omega), setAt_ne _ _ hn]
      · rw [setAt_ne _ _ hn]
  · intro a h1 h2 h3
    by_cases ha : a = hi
    · subst ha
      unfold putDictP
      rw [if_pos h3, setAt_self, hc]
    · have hn := hold a h1 (by omega)
      rw [h.mirror a (by omega) (by omega) h3]
      unfold putDictP
      split
      · rw [setAt_ne _ _ (by omega), setAt_ne _ _ (by omega)]
      · rw [setAt_ne _ _ (by omega)]

/-! ### Reading -/

theorem rdDict_ok (dict : Nat → UInt8) {i : Nat} (h : i ≤ 33024) : rdDict dict i = .ok (dict i) := by
  rw [rdDict, if_pos (by omega)]

theorem rdWord_ok (dict : Nat → UInt8) {i : Nat} (h : i ≤ 33023) :
    rdWord dict i = .ok ((dict i).toNat + 256 * (dict (i + 1)).toNat) := by
  unfold rdWord
  rw [rdDict_ok _ (by omega), rdDict_ok _ (by omega)]
  rfl

theorem word_inj {a b c d : UInt8} (h : a.toNat + 256 * b.toNat = c.toNat + 256 * d.toNat) : a = c ∧ b = d := by
  have := a.toNat_lt
  have := c.toNat_lt
  exact ⟨UInt8.toNat_inj.1 (by omega), UInt8.toNat_inj.1 (by omega)⟩

theorem cmpWords_ok (dict : Nat → UInt8) (s q : Nat) (hs : s < 32768) (hq : q < 32768) (f k0 : Nat) (hf : f + k0 = 129) :
    ∃ k, cmpWords dict s q f k0 = .ok k ∧ k0 ≤ k ∧ k ≤ 129 ∧
      ∀ i, 2 * k0 ≤ i → i < 2 * k → dict (s + i) = dict (q + i) := by
  induction f generalizing k0 with
  | zero => exact ⟨k0, rfl, le_rfl, by omega, fun i h1 h2 => by omega⟩
  | succ f ih =>
    rw [cmpWords, rdWord_ok _ (by omega), rdWord_ok _ (by omega)]
    simp only [bind, Except.bind]
    split
    · rename_i h
      obtain ⟨h1, h2⟩ := word_inj h
      obtain ⟨k, e1, e2, e3, e4⟩ := ih (k0 + 1) (by omega)
      refine ⟨k, e1, by omega, e3, fun i hi1 hi2 => ?_⟩
      by_cases hi : i = 2 * k0
      · subst hi; exact h1
      · by_cases hi' : i = 2 * k0 + 1
        · subst hi'
          rw [← Nat.add_assoc, ← Nat.add_assoc]
          exact h2
        · exact e4 i (by omega) hi2
    · exact ⟨k0, rfl, le_rfl, by omega, fun i h1 h2 => by omega⟩

/-- No match (distance 0), or one in the window. -/
def MatchOk (input : Bytes) (lo lp hi : Nat) (dist len : Nat) : Prop :=
  dist = 0 ∨ (lo + dist ≤ lp ∧ 3 ≤ len ∧ len ≤ 258 ∧ lp + len ≤ hi ∧ ∀ i < len, input[lp - dist + i]? = input[lp + i]?)

theorem tryMatch_ok {input : Bytes} {d : Tdefl} {lo hi : Nat} (hw : Win input d.dict lo hi) (hl : lo ≤ d.lookaheadPos)
    (maxLen : Nat) (hm : d.lookaheadPos + maxLen = hi) (hm2 : maxLen ≤ 258) (s : FindState)
    (h2 : 2 ≤ s.matchLen) (h3 : s.matchLen < maxLen) (hs : MatchOk input lo d.lookaheadPos hi s.dist s.len)
    (dist : Nat) (hd : lo + dist ≤ d.lookaheadPos) :
    ∃ fin s', tryMatch d maxLen (d.lookaheadPos % 32768)
        ((d.dict (d.lookaheadPos % 32768)).toNat + 256 * (d.dict (d.lookaheadPos % 32768 + 1)).toNat) s
        ((d.lookaheadPos - dist) % 32768) dist = .ok (fin, s') ∧ MatchOk input lo d.lookaheadPos hi s'.dist s'.len ∧
      (fin = false → 2 ≤ s'.matchLen ∧ s'.matchLen < maxLen ∧ s'.probePos < 32768) := by
  unfold tryMatch
  generalize hpp : (d.lookaheadPos - dist) % 32768 = q
  generalize hps : d.lookaheadPos % 32768 = p
  have hp : p < 32768 := by omega
  have hq : q < 32768 := by omega
  simp only [pure, Except.pure]
  by_cases h0 : dist = 0
  · rw [if_pos h0]
    exact ⟨true, _, rfl, hs, by simp⟩
  rw [if_neg h0, rdWord_ok _ (by omega)]
  simp only [bind, Except.bind]
  split
  · exact ⟨false, _, rfl, hs, fun _ => ⟨h2, h3, hq⟩⟩
  rename_i hw1
  obtain ⟨w1, w2⟩ := word_inj (not_not.1 hw1)
  obtain ⟨k, e1, e2, e3, e4⟩ := cmpWords_ok d.dict p q hp hq 128 1 (by norm_num)
  rw [e1]
  -- bytes that agree give a match
  have hmatch : ∀ n, n ≤ 258 → n ≤ maxLen → 3 ≤ n → (∀ i, 2 ≤ i → i < n → d.dict (p + i) = d.dict (q + i)) →
      MatchOk input lo d.lookaheadPos hi dist n := by
    intro n hn hn2 hn3 hag
    refine .inr ⟨hd, hn3, hn, by omega, fun i hi' => ?_⟩
    rw [hw.at (a := d.lookaheadPos - dist) (by omega) (by omega) (by omega), hw.at (a := d.lookaheadPos) hl (by omega) (by omega),
      hpp, hps]
    congr 1
    by_cases hi0 : i = 0
    · subst hi0; exact w1
    · by_cases hi1 : i = 1
      · subst hi1; exact w2
      · exact (hag i (by omega) hi').symm
  simp only
  by_cases hk : k = 129
  · rw [if_pos hk]
    refine ⟨true, _, rfl, ?_, by simp⟩
    exact hmatch (min maxLen 258) (by omega) (by omega) (by omega) (fun i h1 h2 => e4 i h1 (by omega))
  · rw [if_neg hk, rdDict_ok _ (by omega), rdDict_ok _ (by omega)]
    simp only
    generalize hpl : 2 * k + (if d.dict (p + 2 * k) = d.dict (q + 2 * k) then 1 else 0) = pl
    have hagree : ∀ i, 2 ≤ i → i < pl → d.dict (p + i) = d.dict (q + i) := by
      intro i h1 h2
      by_cases hik : i < 2 * k
      · exact e4 i h1 hik
      · split at hpl
        · rename_i he
          have : i = 2 * k := by omega
          rw [this]; exact he
        · omega
    have hple : pl ≤ 257 := by split at hpl <;> omega
    split
    · rename_i hgt
      have hM := hmatch (min maxLen pl) (by omega) (by omega) (by omega) (fun i h1 h2 => hagree i h1 (by omega))
      split
      · exact ⟨true, _, rfl, hM, by simp⟩
      · rename_i hne
        rw [rdWord_ok _ (by omega)]
        exact ⟨false, _, rfl, hM, fun _ => ⟨by simp only; omega, by simp only; omega, hq⟩⟩
    · exact ⟨false, _, rfl, hs, fun _ => ⟨h2, h3, hq⟩⟩

theorem probes_ok (d : Tdefl) (maxDist : Nat) (hmd : maxDist ≤ 32768) (hlp : maxDist ≤ d.lookaheadPos) (s : FindState) (hs : 2 ≤ s.matchLen) (hs2 : s.matchLen ≤ 257) (k pos : Nat) (hpos : pos < 32768) :
    ∃ r, probes d maxDist s k pos = .ok r ∧ (∀ pos' dist, r = .hit pos' dist → dist ≠ 0 →
      dist ≤ maxDist ∧ pos' = (d.lookaheadPos - dist) % 32768) ∧ (∀ pos', r = .miss pos' → pos' < 32768) ∧
      (∀ pos' dist, r = .hit pos' dist → pos' < 32768) := by
  induction k generalizing pos with
  | zero => exact ⟨.miss pos, rfl, by simp, fun _ h => by simp only [Probe.miss.injEq] at h; omega, by simp⟩
  | succ k ih =>
    rw [probes]
    unfold probe
    rw [rdArr_ok _ hpos]
    simp only [bind, Except.bind]
    generalize d.next pos = nx
    by_cases hc : nx = 0 ∨ (d.lookaheadPos + 2 ^ 32 - nx) % 65536 > maxDist
    · rw [if_pos hc]
      exact ⟨.stop, rfl, by simp, by simp, by simp⟩
    · rw [if_neg hc]
      rw [not_or] at hc
      rw [rdWord_ok _ (by omega)]
      simp only
      by_cases hw : (d.dict (nx % 32768 + s.matchLen - 1)).toNat + 256 * (d.dict (nx % 32768 + s.matchLen - 1 + 1)).toNat = s.c01
      · rw [if_pos hw]
        refine ⟨_, rfl, ?_, by simp, ?_⟩
        · intro pos' dist he h0
          simp only [Probe.hit.injEq] at he
          obtain ⟨rfl, rfl⟩ := he
          refine ⟨by omega, by omega⟩
        · intro pos' dist he
          simp only [Probe.hit.injEq] at he
          omega
      · rw [if_neg hw]
        exact ih _ (Nat.mod_lt _ (by norm_num))


theorem findLoop_ok {input : Bytes} {d : Tdefl} {lo hi : Nat} (hw : Win input d.dict lo hi) (hl : lo + d.dictSize = d.lookaheadPos)
    (maxLen : Nat) (hm : d.lookaheadPos + maxLen = hi) (hm2 : maxLen ≤ 258) (n : Nat) (s : FindState)
    (h2 : 2 ≤ s.matchLen) (h3 : s.matchLen < maxLen) (hs : MatchOk input lo d.lookaheadPos hi s.dist s.len)
    (hp : s.probePos < 32768) :
    ∃ s', findLoop d d.dictSize maxLen (d.lookaheadPos % 32768)
        ((d.dict (d.lookaheadPos % 32768)).toNat + 256 * (d.dict (d.lookaheadPos % 32768 + 1)).toNat) n s = .ok s' ∧
      MatchOk input lo d.lookaheadPos hi s'.dist s'.len := by
  induction n generalizing s with
  | zero => exact ⟨s, rfl, hs⟩
  | succ n ih =>
    rw [findLoop]
    split
    · exact ⟨s, rfl, hs⟩
    · have hsz := hw.size
      obtain ⟨r, e1, e2, e3, e4⟩ := probes_ok d d.dictSize (by omega) (by omega) s h2 (by omega) 3 s.probePos hp
      rw [e1]
      simp only [bind, Except.bind]
      cases r with
      | stop => exact ⟨s, rfl, hs⟩
      | miss pos' => exact ih { s with probePos := pos' } h2 h3 hs (e3 pos' rfl)
      | hit pos' dist =>
        simp only
        by_cases h0 : dist = 0
        · refine ⟨{ s with probePos := pos' }, ?_, hs⟩
          unfold tryMatch
          rw [if_pos h0]
          rfl
        · obtain ⟨q1, q2⟩ := e2 pos' dist rfl h0
          obtain ⟨fin, s', g1, g2, g3⟩ := tryMatch_ok hw (by omega) maxLen hm hm2 s h2 h3 hs dist (by omega)
          rw [← q2] at g1
          rw [g1]
          cases fin with
          | true => exact ⟨s', rfl, g2⟩
          | false => exact ih s' (g3 rfl).1 (g3 rfl).2.1 g2 (g3 rfl).2.2

theorem findMatch_ok {input : Bytes} {d : Tdefl} {lo : Nat} (hw : Win input d.dict lo (d.lookaheadPos + d.lookaheadSize))
    (hl : lo + d.dictSize = d.lookaheadPos) (hm2 : d.lookaheadSize ≤ 258) :
    ∃ dist len, findMatch dbg d 2 = .ok (dist, len) ∧
      MatchOk input lo d.lookaheadPos (d.lookaheadPos + d.lookaheadSize) dist len := by
  unfold findMatch
  dsimp only
  have hp : d.lookaheadPos % 32768 < 32768 := Nat.mod_lt _ (by norm_num)
  rw [rdWord_ok _ (by omega), rdWord_ok _ (by omega)]
  rw [mzAssert_ok hm2]
  simp only [bind, Except.bind, pure, Except.pure]
  split
  · exact ⟨0, 2, rfl, .inl rfl⟩
  · rename_i h
    obtain ⟨s', e1, e2⟩ := findLoop_ok hw hl d.lookaheadSize rfl hm2 (maxProbes (decide (2 ≥ 32)))
      { probePos := d.lookaheadPos % 32768, matchLen := 2,
        c01 := (d.dict (d.lookaheadPos % 32768 + 2 - 1)).toNat + 256 * (d.dict (d.lookaheadPos % 32768 + 2 - 1 + 1)).toNat,
        dist := 0, len := 2 } (by simp) (by simp only; omega) (.inl rfl) hp
    rw [e1]
    exact ⟨s'.dist, s'.len, rfl, e2⟩

/-! ### What the tokens stand for -/

theorem copyBack_take (input : Bytes) (n dist p : Nat) (h0 : dist ≠ 0) (hd : dist ≤ p) (hn : p + n ≤ input.length)
    (heq : ∀ i < n, input[p - dist + i]? = input[p + i]?) :
    copyBack n dist (input.take p) = some (input.take (p + n)) := by
  induction n generalizing p with
  | zero => rfl
  | succ n ih =>
    have hlen : (input.take p).length = p := by rw [List.length_take]; omega
    rw [copyBack, hlen, if_neg (by omega)]
    have e := heq 0 (by omega)
    rw [List.getElem?_take_of_lt (by omega)]
    rw [Nat.add_zero, Nat.add_zero] at e
    rw [e, List.getElem?_eq_getElem (by omega)]
    simp only
    rw [← List.take_succ_eq_append_getElem (by omega)]
    have := ih (p + 1) (by omega) (by omega) (fun i hi => by
      have := heq (i + 1) (by omega)
      rw [show p + 1 - dist + i = p - dist + (i + 1) by omega, show p + 1 + i = p + (i + 1) by omega]
      exact this)
    rw [this]
    congr 2
    omega

theorem LzTok.expand_lit {input : Bytes} {p : Nat} {c : UInt8} (h : input[p]? = some c) :
    (LzTok.lit c).tok.expand (input.take p) = some (input.take (p + 1)) := by
  obtain ⟨h1, h2⟩ := List.getElem?_eq_some_iff.1 h
  rw [LzTok.tok, Tok.expand, ← h2, List.take_succ_eq_append_getElem h1]

theorem LzTok.expand_mat {input : Bytes} {p dist len : Nat} (h0 : dist ≠ 0) (hd : dist ≤ p) (hd2 : dist ≤ 32768) (h3 : 3 ≤ len)
    (h258 : len ≤ 258) (hn : p + len ≤ input.length) (heq : ∀ i < len, input[p - dist + i]? = input[p + i]?) :
    (LzTok.mat (len - 3) (dist - 1)).tok.expand (input.take p) = some (input.take (p + len)) := by
  obtain ⟨-, -, -, h4, -⟩ := lenTab_ok (len - 3) (by omega)
  obtain ⟨-, -, g4, -⟩ := distTab_ok (dist - 1) (by omega)
  rw [LzTok.tok, Tok.expand, h4, g4, show len - 3 + 3 = len by omega, show dist - 1 + 1 = dist by omega]
  exact copyBack_take input len dist p h0 hd hn heq

end Npy
