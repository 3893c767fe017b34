import Verif.Proofs.DeflAll
/-!
# What the compressor makes does not depend on uninitialised memory

Two runs with different junk are compared step by step.
-/

namespace Npy
open Spec.Deflate

/-- The same error, or related values. -/
def ERel {α β : Type} (R : α → β → Prop) : Except Err α → Except Err β → Prop
  | .ok a, .ok b => R a b
  | .error e, .error e' => e = e'
  | _, _ => False

theorem ERel.bind {α β γ δ : Type} {R : α → β → Prop} {S : γ → δ → Prop} {x : Except Err α} {y : Except Err β}
    {f : α → Except Err γ} {g : β → Except Err δ} (h : ERel R x y) (hf : ∀ a b, R a b → ERel S (f a) (g b)) :
    ERel S (x >>= f) (y >>= g) := by
  match x, y, h with
  | .ok a, .ok b, h => exact hf a b h
  | .error e, .error e', h => exact h

theorem ERel.cases {α β : Type} {R : α → β → Prop} {x : Except Err α} {y : Except Err β} (h : ERel R x y) :
    (∃ e, x = .error e ∧ y = .error e) ∨ ∃ a b, x = .ok a ∧ y = .ok b ∧ R a b := by
  match x, y, h with
  | .ok a, .ok b, h => exact .inr ⟨a, b, rfl, rfl, h⟩
  | .error e, .error e', h => exact .inl ⟨e, rfl, by rw [show e = e' from h]⟩

/-- The codes recorded so far, up to the bits of the flags that were not set yet. -/
structure LzSim (a b : LzBuf) : Prop where
  closed : a.closed = b.closed
  body : a.body = b.body
  left : a.left = b.left
  flags : a.flags >>> a.left = b.flags >>> b.left

theorem LzSim.pos {a b : LzBuf} (h : LzSim a b) : a.pos = b.pos := by
  rw [LzBuf.pos, LzBuf.pos, h.closed, h.body]

theorem LzSim.codes {a b : LzBuf} (h : LzSim a b) : a.codes = b.codes := by
  rw [LzBuf.codes, LzBuf.codes, h.pos, h.closed, h.body, h.flags, h.left]

theorem lzSim_empty (j j' : Junk) : LzSim (LzBuf.empty j) (LzBuf.empty j') := by
  have h : ∀ u : UInt8, u.toNat >>> 8 = 0 := by
    intro u
    have := u.toNat_lt
    rw [Nat.shiftRight_eq_div_pow]
    omega
  exact ⟨rfl, rfl, rfl, by simp only [LzBuf.empty]; rw [h, h]⟩

theorem shr_step (f l m : Nat) (hl : l - 1 ≠ 0) : ((f >>> 1) ||| m) >>> (l - 1) = (f >>> l) ||| (m >>> (l - 1)) := by
  rw [Nat.shiftRight_or_distrib, ← Nat.shiftRight_add, show 1 + (l - 1) = l by omega]

theorem LzSim.record {a b : LzBuf} (h : LzSim a b) (j j' : Junk) (bytes : Bytes) (m : Bool) :
    ERel LzSim (a.record j bytes m) (b.record j' bytes m) := by
  unfold LzBuf.record
  dsimp only
  generalize (if m = true then (0x80 : Nat) else 0) = x
  by_cases h1 : a.left - 1 = 0
  · have h1' : b.left - 1 = 0 := by rw [← h.left]; exact h1
    rw [if_pos h1, if_pos h1']
    have hf : (a.flags >>> 1) = (b.flags >>> 1) := by
      have hl := h.left
      have hs := h.flags
      rw [← hl] at hs
      have : a.left = 0 ∨ a.left = 1 := by omega
      rcases this with h0 | h0
      · rw [h0] at hs
        rw [Nat.shiftRight_zero, Nat.shiftRight_zero] at hs
        rw [hs]
      · rw [h0] at hs; exact hs
    have hsim : LzSim ⟨a.closed ++ UInt8.ofNat (a.flags >>> 1 ||| x) :: (a.body ++ bytes), j.flags.toNat, [], 8⟩
        ⟨b.closed ++ UInt8.ofNat (b.flags >>> 1 ||| x) :: (b.body ++ bytes), j'.flags.toNat, [], 8⟩ :=
      ⟨by simp only [hf, h.closed, h.body], rfl, rfl, (lzSim_empty j j').flags⟩
    rw [hsim.pos]
    split
    · exact hsim
    · exact rfl
  · have h1' : ¬b.left - 1 = 0 := by rw [← h.left]; exact h1
    rw [if_neg h1, if_neg h1']
    have hsim : LzSim ⟨a.closed, a.flags >>> 1 ||| x, a.body ++ bytes, a.left - 1⟩
        ⟨b.closed, b.flags >>> 1 ||| x, b.body ++ bytes, b.left - 1⟩ := by
      refine ⟨h.closed, ?_, ?_, ?_⟩
      · simp only [h.body]
      · simp only [h.left]
      · simp only
        rw [shr_step _ _ _ h1, shr_step _ _ _ h1', h.flags, h.left]
    rw [hsim.pos]
    split
    · exact hsim
    · exact rfl

/-- A cell of the hash chains with the same value, of 16 bits. -/
def Agree (f g : Nat → Nat) (c : Nat) : Prop := f c = g c ∧ f c < 65536

theorem Agree.set {f g : Nat → Nat} {c : Nat} (i v : Nat) (hv : v < 65536) (h : Agree f g c ∨ c = i) :
    Agree (setAt f i v) (setAt g i v) c := by
  unfold Agree
  by_cases he : c = i
  · rw [he, setAt_self, setAt_self]
    exact ⟨rfl, hv⟩
  · rw [setAt_ne _ _ he, setAt_ne _ _ he]
    exact h.resolve_right he

theorem setAt_lt {f : Nat → Nat} (h : ∀ k, f k < 65536) (i v : Nat) : ∀ k, setAt f i (v % 65536) k < 65536 := by
  intro k
  by_cases he : k = i
  · rw [he, setAt_self]; exact Nat.mod_lt _ (by norm_num)
  · rw [setAt_ne _ _ he]; exact h k

/-- Two compressors that have seen the same input. -/
structure Sim (input : Bytes) (d d' : Tdefl) : Prop where
  same : d' = { d with dict := d'.dict, next := d'.next, lz := d'.lz }
  small : input.length < 2 ^ 32
  ls : d.lookaheadSize ≤ 258
  ds : d.dictSize ≤ d.lookaheadPos
  win : Win input d.dict (d.lookaheadPos - d.dictSize) (d.lookaheadPos + d.lookaheadSize)
  win' : Win input d'.dict (d.lookaheadPos - d.dictSize) (d.lookaheadPos + d.lookaheadSize)
  next : ∀ a, d.lookaheadPos - d.dictSize ≤ a → a + 2 < d.lookaheadPos + d.lookaheadSize → Agree d.next d'.next (a % 32768)
  hash : ∀ k, d.hash k < 65536
  lz : LzSim d.lz d'.lz
  total : d.codeBufDictPos + d.totalLzBytes = d.lookaheadPos
  saved : d.savedLen = 0

theorem Sim.lsEq {input : Bytes} {d d' : Tdefl} (h : Sim input d d') : d'.lookaheadSize = d.lookaheadSize := by rw [h.same]
theorem Sim.penEq {input : Bytes} {d d' : Tdefl} (h : Sim input d d') : d'.pending = d.pending := by rw [h.same]
theorem Sim.finEq {input : Bytes} {d d' : Tdefl} (h : Sim input d d') : d'.finished = d.finished := by rw [h.same]
theorem Sim.wantsEq {input : Bytes} {d d' : Tdefl} (h : Sim input d d') : d'.wantsToFinish = d.wantsToFinish := by rw [h.same]
theorem Sim.totalEq {input : Bytes} {d d' : Tdefl} (h : Sim input d d') : d'.totalLzBytes = d.totalLzBytes := by rw [h.same]

/-- The windows agree. -/
theorem Win.eq {input : Bytes} {dict dict' : Nat → UInt8} {lo hi : Nat} (h : Win input dict lo hi) (h' : Win input dict' lo hi)
    {a : Nat} (h1 : lo ≤ a) (h2 : a < hi) : dict (a % 32768) = dict' (a % 32768) :=
  Option.some.inj ((h.cell a h1 h2).symm.trans (h'.cell a h1 h2))

theorem Win.eqAt {input : Bytes} {dict dict' : Nat → UInt8} {lo hi : Nat} (h : Win input dict lo hi) (h' : Win input dict' lo hi)
    {a i : Nat} (h1 : lo ≤ a) (h2 : a + i < hi) (h3 : i ≤ 257) : dict (a % 32768 + i) = dict' (a % 32768 + i) :=
  Option.some.inj ((h.at h1 h2 h3).symm.trans (h'.at h1 h2 h3))

/-! ### Filling -/

theorem fillFast_sim (cs : Bytes) (dst ins hash : Nat) (d d' : Tdefl) (hs : d' = { d with dict := d'.dict, next := d'.next, lz := d'.lz })
    (hb : ∀ k, d.hash k < 65536) :
    fillFastP cs dst ins hash d' = { fillFastP cs dst ins hash d with
      dict := (fillFastP cs dst ins hash d').dict, next := (fillFastP cs dst ins hash d').next, lz := d'.lz } ∧
    (∀ k, (fillFastP cs dst ins hash d).hash k < 65536) ∧
    (∀ c, Agree d.next d'.next c → Agree (fillFastP cs dst ins hash d).next (fillFastP cs dst ins hash d').next c) ∧
    (∀ i < cs.length, Agree (fillFastP cs dst ins hash d).next (fillFastP cs dst ins hash d').next ((ins + i) % 32768)) := by
  induction cs generalizing dst ins hash d d' with
  | nil => exact ⟨hs, hb, fun c h => h, by simp⟩
  | cons c cs ih =>
    simp only [fillFastP]
    generalize ((hash <<< 5) ^^^ c.toNat) % 32768 = h
    have hh : d'.hash = d.hash := by rw [hs]
    obtain ⟨i1, i2, i3, i4⟩ := ih ((dst + 1) % 32768) (ins + 1) h (insertHashP h ins { d with dict := putDictP d.dict dst c })
      (insertHashP h ins { d' with dict := putDictP d'.dict dst c }) (by
        rw [hs]; rfl) (setAt_lt hb _ _)
    have hset : ∀ k, Agree d.next d'.next k ∨ k = ins % 32768 →
        Agree (insertHashP h ins { d with dict := putDictP d.dict dst c }).next
        (insertHashP h ins { d' with dict := putDictP d'.dict dst c }).next k := by
      intro k hk
      simp only [insertHashP, hh]
      exact Agree.set _ _ (hb h) hk
    refine ⟨i1, i2, fun k hk => i3 k (hset k (.inl hk)), ?_⟩
    intro i hi
    cases i with
    | zero => exact i3 _ (hset _ (.inr rfl))
    | succ i =>
      rw [List.length_cons] at hi
      rw [show ins + (i + 1) = ins + 1 + i by omega]
      exact i4 i (by omega)

theorem prefix_head {input src : Bytes} {c : UInt8} {p : Nat} (h : c :: src <+: input.drop p) :
    input[p]? = some c ∧ src <+: input.drop (p + 1) := by
  obtain ⟨t, ht⟩ := h
  constructor
  · have := congrArg (fun l => l[0]?) ht
    simp only [List.cons_append, List.getElem?_cons_zero, List.getElem?_drop, Nat.add_zero] at this
    exact this.symm
  · refine ⟨t, ?_⟩
    have := congrArg (List.drop 1) ht
    rw [List.drop_drop] at this
    simpa using this

/-- A byte goes to both dictionaries. -/
theorem Sim.put {input : Bytes} {d d' : Tdefl} (h : Sim input d d') (hds : d.dictSize ≤ 1) (hls : d.lookaheadSize < 258) {c : UInt8}
    (hc : input[d.lookaheadPos + d.lookaheadSize]? = some c) (h3 : d.dictSize + d.lookaheadSize + 1 < 3) :
    Sim input { d with dict := putDictP d.dict ((d.lookaheadPos + d.lookaheadSize) % 32768) c, lookaheadSize := d.lookaheadSize + 1 }
      { d' with dict := putDictP d'.dict ((d.lookaheadPos + d.lookaheadSize) % 32768) c, lookaheadSize := d.lookaheadSize + 1 } := by
  have hd := h.ds
  have hm : max (d.lookaheadPos - d.dictSize) (d.lookaheadPos + d.lookaheadSize + 1 - 32768) = d.lookaheadPos - d.dictSize := by
    omega
  have w := h.win.put hc
  have w' := h.win'.put hc
  rw [hm] at w w'
  constructor
  case same => rw [h.same]
  case small => exact h.small
  case ls => simp only; omega
  case ds => exact hd
  case win => exact w
  case win' => exact w'
  case next => simp only; intro a h1 h2; omega
  case hash => exact h.hash
  case lz => exact h.lz
  case total => exact h.total
  case saved => exact h.saved

theorem Sim.putHash {input : Bytes} {d d' : Tdefl} (h : Sim input d d') (hds : d.dictSize ≤ 1) (hls : d.lookaheadSize < 258) {c : UInt8}
    (hc : input[d.lookaheadPos + d.lookaheadSize]? = some c) (k : Nat) :
    Sim input (insertHashP k (d.lookaheadPos + d.lookaheadSize - 2)
        { d with dict := putDictP d.dict ((d.lookaheadPos + d.lookaheadSize) % 32768) c, lookaheadSize := d.lookaheadSize + 1 })
      (insertHashP k (d.lookaheadPos + d.lookaheadSize - 2)
        { d' with dict := putDictP d'.dict ((d.lookaheadPos + d.lookaheadSize) % 32768) c, lookaheadSize := d.lookaheadSize + 1 }) := by
  have hd := h.ds
  have hm : max (d.lookaheadPos - d.dictSize) (d.lookaheadPos + d.lookaheadSize + 1 - 32768) = d.lookaheadPos - d.dictSize := by
    omega
  have hh : d'.hash = d.hash := by rw [h.same]
  have w := h.win.put hc
  have w' := h.win'.put hc
  rw [hm] at w w'
  constructor
  case same => rw [h.same]; rfl
  case small => exact h.small
  case ls => simp only [insertHashP]; omega
  case ds => exact hd
  case win => exact w
  case win' => exact w'
  case next =>
    simp only [insertHashP]
    intro a h1 h2
    rw [hh]
    refine Agree.set _ _ (h.hash k) ?_
    by_cases he : a = d.lookaheadPos + d.lookaheadSize - 2
    · right; rw [he]
    · left
      exact h.next a h1 (by omega)
  case hash => exact setAt_lt h.hash _ _
  case lz => exact h.lz
  case total => exact h.total
  case saved => exact h.saved

theorem fillSlow_sim {input : Bytes} (src : Bytes) (d d' : Tdefl) (hsrc : src <+: input.drop (d.lookaheadPos + d.lookaheadSize))
    (h : Sim input d d') (hds : d.dictSize ≤ 1) :
    ∃ r e e', fillSlowP src d = (r, e) ∧ fillSlowP src d' = (r, e') ∧ Sim input e e' ∧
      r <+: input.drop (e.lookaheadPos + e.lookaheadSize) ∧ e.dictSize = d.dictSize := by
  induction src generalizing d d' with
  | nil => exact ⟨[], d, d', rfl, rfl, h, List.nil_prefix, rfl⟩
  | cons c src ih =>
    obtain ⟨D, N, L, rfl⟩ : ∃ D N L, d' = { d with dict := D, next := N, lz := L } := ⟨_, _, _, h.same⟩
    rw [fillSlowP, fillSlowP]
    dsimp only
    by_cases hlt : d.lookaheadSize < 258
    · rw [if_pos hlt, if_pos hlt]
      obtain ⟨hc, hsrc'⟩ := prefix_head hsrc
      by_cases h3 : d.lookaheadSize + 1 + d.dictSize ≥ 3
      · rw [if_pos h3, if_pos h3]
        have hins : d.lookaheadPos + (d.lookaheadSize + 1 - 1) - 2 = d.lookaheadPos + d.lookaheadSize - 2 := by omega
        rw [hins]
        have hp := h.putHash hds hlt hc
        have hw := (hp 0).win
        have hw' := (hp 0).win'
        simp only [insertHashP] at hw hw'
        have hd := h.ds
        rw [← hw.eq hw' (a := d.lookaheadPos + d.lookaheadSize - 2) (by omega) (by omega),
          ← hw.eq hw' (a := d.lookaheadPos + d.lookaheadSize - 2 + 1) (by omega) (by omega)]
        exact ih _ _ (by simp only [insertHashP]; rw [← Nat.add_assoc]; exact hsrc') (hp _) hds
      · rw [if_neg h3, if_neg h3]
        exact ih _ _ (by simp only; rw [← Nat.add_assoc]; exact hsrc') (h.put hds hlt hc (by omega)) hds
    · rw [if_neg hlt, if_neg hlt]
      exact ⟨_, _, _, rfl, rfl, h, hsrc, rfl⟩

theorem fill_sim {input : Bytes} (src : Bytes) (d d' : Tdefl) (hsrc : src <+: input.drop (d.lookaheadPos + d.lookaheadSize))
    (h : Sim input d d') :
    ∃ r e e', fillP src d = (r, e) ∧ fillP src d' = (r, e') ∧
      Sim input { e with dictSize := min (32768 - e.lookaheadSize) e.dictSize }
        { e' with dictSize := min (32768 - e'.lookaheadSize) e'.dictSize } ∧
      r <+: input.drop (e.lookaheadPos + e.lookaheadSize) ∧ (src ≠ [] ∨ d.lookaheadSize ≠ 0 → e.lookaheadSize ≠ 0) := by
  have hls : d'.lookaheadSize = d.lookaheadSize := by rw [h.same]
  have hlp : d'.lookaheadPos = d.lookaheadPos := by rw [h.same]
  have hdd : d'.dictSize = d.dictSize := by rw [h.same]
  have hh : d'.hash = d.hash := by rw [h.same]
  have hd := h.ds
  obtain ⟨n, dict1, next1, hash1, e1, e2, e3, e4, e5⟩ := fill_ok src d (d.lookaheadPos - d.dictSize) h.win h.ls hsrc
  obtain ⟨n', dict2, next2, hash2, f1, f2, f3, f4, f5⟩ := fill_ok src d' (d.lookaheadPos - d.dictSize)
    (by rw [hls, hlp]; exact h.win') (by rw [hls]; exact h.ls) (by rw [hls, hlp]; exact hsrc)
  rw [hls, hlp] at f5
  rw [hls] at f3 f4
  have hn : n' = n := by
    by_cases h1 : n < src.length
    · have := e4 h1
      by_cases h2 : n' < src.length
      · have := f4 h2; omega
      · omega
    · by_cases h2 : n' < src.length
      · have := f4 h2; omega
      · omega
  subst hn
  have hcells : hash1 = hash2 ∧ (∀ k, hash1 k < 65536) ∧ ∀ a, d.lookaheadPos - d.dictSize ≤ a → a + 2 < d.lookaheadPos + (d.lookaheadSize + n') →
      Agree next1 next2 (a % 32768) := by
    by_cases h2 : d.lookaheadSize + d.dictSize ≥ 2
    · rw [fillP, if_pos h2] at e1
      rw [fillP, if_pos (by rw [hls, hdd]; exact h2), hls, hlp] at f1
      dsimp only at e1 f1
      rw [← h.win.eq h.win' (a := d.lookaheadPos + d.lookaheadSize - 2) (by omega) (by omega),
        ← h.win.eq h.win' (a := d.lookaheadPos + d.lookaheadSize - 2 + 1) (by omega) (by omega)] at f1
      generalize (((d.dict ((d.lookaheadPos + d.lookaheadSize - 2) % 32768)).toNat <<< 5) ^^^
        (d.dict ((d.lookaheadPos + d.lookaheadSize - 2 + 1) % 32768)).toNat) = hash at e1 f1
      generalize hm : min src.length (258 - d.lookaheadSize) = m at e1 f1
      have hmn : m = n' := by
        have := congrArg (fun x => x.2.lookaheadSize) e1
        simp only at this
        omega
      subst hmn
      obtain ⟨g1, g2, g3, g4⟩ := fillFast_sim (src.take m) ((d.lookaheadPos + d.lookaheadSize) % 32768)
        (d.lookaheadPos + d.lookaheadSize - 2) hash d d' h.same h.hash
      have hl : (src.take m).length = m := by rw [List.length_take]; omega
      rw [hl] at g4
      have a1 := congrArg (fun x => x.2.next) e1
      have a2 := congrArg (fun x => x.2.next) f1
      have b1 := congrArg (fun x => x.2.hash) e1
      have b2 := congrArg (fun x => x.2.hash) f1
      simp only at a1 a2 b1 b2
      rw [a1, a2] at g3 g4
      refine ⟨by rw [← b1, ← b2, g1], by rw [← b1]; exact g2, ?_⟩
      · intro a h3 h4
        by_cases h5 : a + 2 < d.lookaheadPos + d.lookaheadSize
        · exact g3 _ (h.next a h3 h5)
        · have := g4 (a - (d.lookaheadPos + d.lookaheadSize - 2)) (by omega)
          rw [show d.lookaheadPos + d.lookaheadSize - 2 + (a - (d.lookaheadPos + d.lookaheadSize - 2)) = a by omega] at this
          exact this
    · rw [fillP, if_neg h2] at e1
      rw [fillP, if_neg (by rw [hls, hdd]; exact h2)] at f1
      obtain ⟨r, e, e', s1, s2, s3, s4, -⟩ := fillSlow_sim src d d' hsrc h (by omega)
      rw [e1] at s1
      rw [f1] at s2
      simp only [Prod.mk.injEq] at s1 s2
      obtain ⟨-, rfl⟩ := s1
      obtain ⟨-, rfl⟩ := s2
      refine ⟨?_, s3.hash, s3.next⟩
      have := congrArg Tdefl.hash s3.same
      exact this.symm
  refine ⟨_, _, _, e1, f1, ?_, ?_, ?_⟩
  · have hsz := h.win.size
    obtain ⟨hc1, hc3, hc2⟩ := hcells
    subst hc1
    constructor
    case same => rw [h.same]
    case small => exact h.small
    case ls => exact e3
    case ds => simp only; omega
    case win => exact e5.mono (by simp only; omega) (by simp only; omega)
    case win' => exact f5.mono (by simp only; omega) (by simp only; omega)
    case next =>
      simp only
      intro a h1 h2
      exact hc2 a (by omega) h2
    case hash => exact hc3
    case lz => exact h.lz
    case total => exact h.total
    case saved => exact h.saved
  · simp only
    rw [← Nat.add_assoc, ← List.drop_drop]
    obtain ⟨t, ht⟩ := hsrc
    rw [← ht, List.drop_append_of_le_length e2]
    exact List.prefix_append _ _
  · simp only
    intro hne
    rcases hne with hne | hne
    · have : src.length ≠ 0 := by simpa using hne
      by_cases h1 : n' < src.length
      · have := e4 h1; omega
      · omega
    · omega

/-! ### Matches -/

/-- `n` is the number of bytes that agree (two of them are not looked at; at most 258). -/
structure IsLen (dict : Nat → UInt8) (s q n : Nat) : Prop where
  two : 2 ≤ n
  le : n ≤ 258
  agree : ∀ i, 2 ≤ i → i < n → dict (s + i) = dict (q + i)
  differ : n < 258 → dict (s + n) ≠ dict (q + n)

theorem IsLen.min_eq {dict dict' : Nat → UInt8} {s q n n' : Nat} (h : IsLen dict s q n) (h' : IsLen dict' s q n') {m : Nat}
    (hm : m ≤ 258) (hs : ∀ i < m, dict (s + i) = dict' (s + i)) (hq : ∀ i < m, dict (q + i) = dict' (q + i)) :
    min m n = min m n' := by
  rcases Nat.lt_trichotomy n n' with hlt | heq | hlt
  · by_cases hc : n < m
    · have h1 := h'.agree n h.two hlt
      rw [← hs n hc, ← hq n hc] at h1
      exact absurd h1 (h.differ (by omega))
    · omega
  · rw [heq]
  · by_cases hc : n' < m
    · have h1 := h.agree n' h'.two hlt
      rw [hs n' hc, hq n' hc] at h1
      exact absurd h1 (h'.differ (by omega))
    · omega

theorem cmpWords_len (dict : Nat → UInt8) (s q : Nat) (hs : s < 32768) (hq : q < 32768) (f k0 : Nat) (hf : f + k0 = 129)
    (hk0 : 1 ≤ k0) (hag : ∀ i, 2 ≤ i → i < 2 * k0 → dict (s + i) = dict (q + i)) :
    ∃ k, cmpWords dict s q f k0 = .ok k ∧ k ≤ 129 ∧
      IsLen dict s q (if k = 129 then 258 else 2 * k + (if dict (s + 2 * k) = dict (q + 2 * k) then 1 else 0)) := by
  induction f generalizing k0 with
  | zero =>
    refine ⟨k0, rfl, by omega, ?_⟩
    rw [if_pos (by omega)]
    exact ⟨by norm_num, le_rfl, fun i h1 h2 => hag i h1 (by omega), fun h => absurd h (by norm_num)⟩
  | succ f ih =>
    rw [cmpWords, rdWord_ok _ (by omega), rdWord_ok _ (by omega)]
    simp only [bind, Except.bind]
    split
    · rename_i h
      obtain ⟨h1, h2⟩ := word_inj h
      refine ih (k0 + 1) (by omega) (by omega) (fun i hi1 hi2 => ?_)
      by_cases hi : i = 2 * k0
      · subst hi; exact h1
      · by_cases hi' : i = 2 * k0 + 1
        · subst hi'
          rw [← Nat.add_assoc, ← Nat.add_assoc]
          exact h2
        · exact hag i hi1 (by omega)
    · rename_i h
      refine ⟨k0, rfl, by omega, ?_⟩
      rw [if_neg (by omega)]
      split
      · rename_i he
        refine ⟨by omega, by omega, fun i h1 h2 => ?_, fun _ hc => ?_⟩
        · by_cases hi : i = 2 * k0
          · subst hi; exact he
          · exact hag i h1 (by omega)
        · rw [← Nat.add_assoc, ← Nat.add_assoc] at hc
          exact h (by rw [he, hc])
      · rename_i he
        exact ⟨by omega, by omega, fun i h1 h2 => hag i h1 (by omega), fun _ => he⟩

/-- The outcomes of a candidate in the two runs. -/
def TrySim (x y : Bool × FindState) : Prop :=
  x.1 = y.1 ∧ x.2.dist = y.2.dist ∧ x.2.len = y.2.len ∧ (x.1 = false → x.2 = y.2)

/-- The outcome of a candidate as a function of the length of the match. -/
theorem tryMatch_eq (d : Tdefl) (maxLen p : Nat) (hp : p < 32768) (hm2 : maxLen ≤ 258) (s : FindState)
    (h2 : 2 ≤ s.matchLen) (h3 : s.matchLen < maxLen) (q dist : Nat) (hq : q < 32768) (h0 : dist ≠ 0) :
    ∃ n ml, IsLen d.dict p q n ∧ tryMatch d maxLen p ((d.dict q).toNat + 256 * (d.dict (q + 1)).toNat) s q dist = .ok
      (if min maxLen n = maxLen then (true, ⟨q, ml, s.c01, dist, maxLen⟩)
       else if s.matchLen < min maxLen n then
          (false, ⟨q, min maxLen n, (d.dict (p + min maxLen n - 1)).toNat + 256 * (d.dict (p + min maxLen n - 1 + 1)).toNat,
            dist, min maxLen n⟩)
       else (false, ⟨q, s.matchLen, s.c01, s.dist, s.len⟩)) := by
  obtain ⟨k, c1, c2, c3⟩ := cmpWords_len d.dict p q hp hq 128 1 (by norm_num) le_rfl (fun i h1 h2 => by omega)
  refine ⟨_, if k = 129 then s.matchLen else maxLen, c3, ?_⟩
  unfold tryMatch
  rw [if_neg h0, rdWord_ok _ (by omega)]
  simp only [bind, Except.bind, pure, Except.pure]
  rw [if_neg (by simp), c1]
  simp only
  have hn := c3.le
  by_cases hk9 : k = 129
  · simp only [if_pos hk9]
    rw [if_pos (by omega), show min maxLen 258 = maxLen by omega]
  · simp only [if_neg hk9] at hn ⊢
    rw [rdDict_ok _ (by omega), rdDict_ok _ (by omega)]
    simp only
    generalize 2 * k + (if d.dict (p + 2 * k) = d.dict (q + 2 * k) then 1 else 0) = n at hn ⊢
    by_cases hm : min maxLen n = maxLen
    · rw [if_pos (show n > s.matchLen by omega), if_pos hm, if_pos hm, hm]
    · simp only [if_neg hm]
      by_cases hgt : n > s.matchLen
      · rw [if_pos hgt, if_pos (by omega), rdWord_ok _ (by omega)]
      · rw [if_neg hgt, if_neg (show ¬s.matchLen < min maxLen n by omega)]

theorem tryMatch_sim {d d' : Tdefl} (maxLen p s01 : Nat) (hp : p < 32768) (hm2 : maxLen ≤ 258) (s : FindState)
    (h2 : 2 ≤ s.matchLen) (h3 : s.matchLen < maxLen) (q dist : Nat) (hq : q < 32768)
    (ep : ∀ i < maxLen, d.dict (p + i) = d'.dict (p + i)) (eq : ∀ i < maxLen, d.dict (q + i) = d'.dict (q + i)) :
    ∃ x y, tryMatch d maxLen p s01 s q dist = .ok x ∧ tryMatch d' maxLen p s01 s q dist = .ok y ∧ TrySim x y ∧
      (x.1 = false → 2 ≤ x.2.matchLen ∧ x.2.matchLen < maxLen ∧ x.2.probePos = q) := by
  by_cases h0 : dist = 0
  · unfold tryMatch
    rw [if_pos h0, if_pos h0]
    exact ⟨_, _, rfl, rfl, ⟨rfl, rfl, rfl, fun _ => rfl⟩, by simp⟩
  have e0 := eq 0 (by omega)
  have e1 := eq 1 (by omega)
  rw [Nat.add_zero] at e0
  by_cases hw : (d.dict q).toNat + 256 * (d.dict (q + 1)).toNat = s01
  · obtain ⟨n, ml, l1, r1⟩ := tryMatch_eq d maxLen p hp hm2 s h2 h3 q dist hq h0
    obtain ⟨n', ml', l1', r1'⟩ := tryMatch_eq d' maxLen p hp hm2 s h2 h3 q dist hq h0
    rw [hw] at r1
    rw [← e0, ← e1, hw, ← l1.min_eq l1' hm2 ep eq] at r1'
    refine ⟨_, _, r1, r1', ?_, ?_⟩
    · have hmm : min maxLen n ≤ maxLen := Nat.min_le_left _ _
      generalize min maxLen n = m at *
      unfold TrySim
      by_cases hne : m = maxLen
      · rw [if_pos hne, if_pos hne]
        exact ⟨rfl, rfl, rfl, by simp⟩
      · rw [if_neg hne, if_neg hne]
        by_cases hgt : s.matchLen < m
        · rw [if_pos hgt, if_pos hgt]
          refine ⟨rfl, rfl, rfl, fun _ => ?_⟩
          have a1 := ep (m - 1) (by omega)
          have a2 := ep m (by omega)
          rw [show p + m - 1 = p + (m - 1) by omega, show p + (m - 1) + 1 = p + m by omega, a1, a2]
        · rw [if_neg hgt, if_neg hgt]
          exact ⟨rfl, rfl, rfl, fun _ => rfl⟩
    · split
      · simp
      · split
        · intro _
          exact ⟨by simp only; omega, by simp only; omega, rfl⟩
        · intro _
          exact ⟨h2, h3, rfl⟩
  · unfold tryMatch
    simp only [pure, Except.pure]
    rw [if_neg h0, if_neg h0, rdWord_ok _ (by omega), rdWord_ok _ (by omega), ← e0, ← e1]
    simp only [bind, Except.bind]
    rw [if_pos hw, if_pos hw]
    exact ⟨_, _, rfl, rfl, ⟨rfl, rfl, rfl, fun _ => rfl⟩, fun _ => ⟨h2, h3, rfl⟩⟩

theorem probes_sim {input : Bytes} {d d' : Tdefl} (h : Sim input d d') (s : FindState) (hs : 2 ≤ s.matchLen)
    (hs2 : s.matchLen < d.lookaheadSize) (k a : Nat) (h1 : d.lookaheadPos - d.dictSize ≤ a) (h2 : a ≤ d.lookaheadPos) :
    ∃ r, probes d d.dictSize s k (a % 32768) = .ok r ∧ probes d' d.dictSize s k (a % 32768) = .ok r ∧
      (∀ pos, r = .miss pos → ∃ b, d.lookaheadPos - d.dictSize ≤ b ∧ b ≤ d.lookaheadPos ∧ pos = b % 32768) ∧
      (∀ pos dist, r = .hit pos dist → ∃ b, d.lookaheadPos - d.dictSize ≤ b ∧ b ≤ d.lookaheadPos ∧ pos = b % 32768) := by
  have hls := h.ls
  have hsz := h.win.size
  have hds := h.ds
  induction k generalizing a with
  | zero =>
    refine ⟨.miss (a % 32768), rfl, rfl, ?_, by simp⟩
    intro pos hp
    simp only [Probe.miss.injEq] at hp
    exact ⟨a, h1, h2, hp.symm⟩
  | succ k ih =>
    rw [probes, probes]
    unfold probe
    rw [rdArr_ok _ (Nat.mod_lt a (by norm_num)), rdArr_ok _ (Nat.mod_lt a (by norm_num))]
    simp only [bind, Except.bind]
    obtain ⟨n1, n2⟩ := h.next a h1 (by omega)
    have hlp : d'.lookaheadPos = d.lookaheadPos := by rw [h.same]
    rw [← n1, hlp]
    generalize d.next (a % 32768) = nx at *
    by_cases hc : nx = 0 ∨ (d.lookaheadPos + 2 ^ 32 - nx) % 65536 > d.dictSize
    · rw [if_pos hc, if_pos hc]
      exact ⟨.stop, rfl, rfl, by simp, by simp⟩
    · rw [if_neg hc, if_neg hc]
      rw [not_or] at hc
      obtain ⟨b, hb⟩ : ∃ b, b = d.lookaheadPos - (d.lookaheadPos + 2 ^ 32 - nx) % 65536 := ⟨_, rfl⟩
      have hb1 : d.lookaheadPos - d.dictSize ≤ b := by omega
      have hb2 : b ≤ d.lookaheadPos := by omega
      have hb3 : nx % 32768 = b % 32768 := by omega
      rw [hb3]
      have w1 := h.win.eqAt h.win' (a := b) (i := s.matchLen - 1) hb1 (by omega) (by omega)
      have w2 := h.win.eqAt h.win' (a := b) (i := s.matchLen) hb1 (by omega) (by omega)
      rw [rdWord_ok _ (by omega), rdWord_ok _ (by omega)]
      rw [show b % 32768 + s.matchLen - 1 = b % 32768 + (s.matchLen - 1) by omega,
        show b % 32768 + (s.matchLen - 1) + 1 = b % 32768 + s.matchLen by omega, ← w1, ← w2]
      simp only
      by_cases hw : (d.dict (b % 32768 + (s.matchLen - 1))).toNat + 256 * (d.dict (b % 32768 + s.matchLen)).toNat = s.c01
      · rw [if_pos hw]
        refine ⟨_, rfl, rfl, by simp, ?_⟩
        intro pos dist hp
        simp only [Probe.hit.injEq] at hp
        exact ⟨b, hb1, hb2, hp.1.symm⟩
      · rw [if_neg hw]
        exact ih b hb1 hb2

theorem findLoop_sim {input : Bytes} {d d' : Tdefl} (h : Sim input d d') (s01 n : Nat) (s : FindState) (hs : 2 ≤ s.matchLen)
    (hs2 : s.matchLen < d.lookaheadSize) (a : Nat) (h1 : d.lookaheadPos - d.dictSize ≤ a) (h2 : a ≤ d.lookaheadPos)
    (hpp : s.probePos = a % 32768) :
    ∃ r r', findLoop d d.dictSize d.lookaheadSize (d.lookaheadPos % 32768) s01 n s = .ok r ∧
      findLoop d' d.dictSize d.lookaheadSize (d.lookaheadPos % 32768) s01 n s = .ok r' ∧ r.dist = r'.dist ∧ r.len = r'.len := by
  have hls := h.ls
  induction n generalizing s a with
  | zero => exact ⟨s, s, rfl, rfl, rfl, rfl⟩
  | succ n ih =>
    rw [findLoop, findLoop]
    split
    · exact ⟨s, s, rfl, rfl, rfl, rfl⟩
    · obtain ⟨r, e1, e2, e3, e4⟩ := probes_sim h s hs hs2 3 a h1 h2
      rw [hpp, e1, e2]
      simp only [bind, Except.bind]
      cases r with
      | stop => exact ⟨s, s, rfl, rfl, rfl, rfl⟩
      | miss pos' =>
        obtain ⟨b, b1, b2, b3⟩ := e3 pos' rfl
        exact ih { s with probePos := pos' } hs hs2 b b1 b2 b3
      | hit pos' dist =>
        obtain ⟨b, b1, b2, b3⟩ := e4 pos' dist rfl
        simp only
        have ep : ∀ i < d.lookaheadSize, d.dict (d.lookaheadPos % 32768 + i) = d'.dict (d.lookaheadPos % 32768 + i) :=
          fun i hi => h.win.eqAt h.win' (by omega) (by omega) (by omega)
        have eq : ∀ i < d.lookaheadSize, d.dict (pos' + i) = d'.dict (pos' + i) := by
          intro i hi
          rw [b3]
          exact h.win.eqAt h.win' b1 (by omega) (by omega)
        obtain ⟨x, y, t1, t2, t3, t4⟩ := tryMatch_sim d.lookaheadSize (d.lookaheadPos % 32768) s01 (Nat.mod_lt _ (by norm_num)) hls s hs hs2
          pos' dist (by rw [b3]; exact Nat.mod_lt _ (by norm_num)) ep eq
        rw [t1, t2]
        obtain ⟨f, x⟩ := x
        obtain ⟨f', y⟩ := y
        obtain ⟨q1, q2, q3, q4⟩ := t3
        dsimp only at q1 q2 q3 q4 t4
        subst q1
        cases f with
        | true => exact ⟨x, y, rfl, rfl, q2, q3⟩
        | false =>
          rw [← q4 rfl]
          obtain ⟨g1, g2, g3⟩ := t4 rfl
          exact ih x g1 g2 b b1 b2 (by rw [g3, b3])

theorem findMatch_sim {input : Bytes} {d d' : Tdefl} (h : Sim input d d') : findMatch true d 2 = findMatch true d' 2 := by
  have hlp : d'.lookaheadPos = d.lookaheadPos := by rw [h.same]
  have hll : d'.lookaheadSize = d.lookaheadSize := by rw [h.same]
  have hdd : d'.dictSize = d.dictSize := by rw [h.same]
  have hls := h.ls
  unfold findMatch
  dsimp only
  rw [hlp, hll, hdd]
  have hp : d.lookaheadPos % 32768 < 32768 := Nat.mod_lt _ (by norm_num)
  rw [rdWord_ok _ (by omega), rdWord_ok _ (by omega), rdWord_ok _ (by omega), rdWord_ok _ (by omega)]
  rw [mzAssert_ok hls]
  simp only [bind, Except.bind, pure, Except.pure]
  by_cases h2 : d.lookaheadSize ≤ 2
  · rw [if_pos h2, if_pos h2]
  · rw [if_neg h2, if_neg h2]
    have w0 := h.win.eqAt h.win' (a := d.lookaheadPos) (i := 0) (by omega) (by omega) (by omega)
    have w1 := h.win.eqAt h.win' (a := d.lookaheadPos) (i := 1) (by omega) (by omega) (by omega)
    have w2 := h.win.eqAt h.win' (a := d.lookaheadPos) (i := 2) (by omega) (by omega) (by omega)
    rw [Nat.add_zero] at w0
    rw [show d.lookaheadPos % 32768 + 2 - 1 = d.lookaheadPos % 32768 + 1 by omega, Nat.add_assoc _ 1 1, ← w0, ← w1, ← w2]
    obtain ⟨r, r', e1, e2, e3, e4⟩ := findLoop_sim h
      ((d.dict (d.lookaheadPos % 32768)).toNat + 256 * (d.dict (d.lookaheadPos % 32768 + 1)).toNat) (maxProbes (decide (2 ≥ 32)))
      { probePos := d.lookaheadPos % 32768, matchLen := 2,
        c01 := (d.dict (d.lookaheadPos % 32768 + 1)).toNat + 256 * (d.dict (d.lookaheadPos % 32768 + (1 + 1))).toNat,
        dist := 0, len := 2 } (by simp) (by simp only; omega) d.lookaheadPos (by omega) le_rfl rfl
    rw [e1, e2]
    simp only
    rw [e3, e4]

/-! ### Recording and flushing -/

theorem ERel.self {α : Type} (x : Except Err α) : ERel (fun a b => a = b) x x := by
  cases x with
  | error e => rfl
  | ok a => exact rfl

theorem mzAssert_true (c : Prop) [Decidable c] : mzAssert true c = if c then .ok () else .error .abort := by
  simp [mzAssert]

theorem mzAssert_sim (c : Prop) [Decidable c] : ERel (fun _ _ => True) (mzAssert true c) (mzAssert true c) := by
  unfold mzAssert
  split
  · trivial
  · rfl

/-- What is recorded when no match was put off. -/
theorem parseStep_plain (j : Junk) (m : Nat × Nat) (d : Tdefl) (h : d.savedLen = 0) :
    parseStep true j m d =
      if m.1 = 0 then recordLiteral j (d.dict (d.lookaheadPos % 32768)) d >>= fun d => pure (1, d)
      else recordMatch true j m.2 m.1 d >>= fun d => pure (m.2, d) := by
  unfold parseStep
  dsimp only
  have hmin : min (d.lookaheadPos % 32768) 33024 = d.lookaheadPos % 32768 := by omega
  rw [if_neg (by rw [h]; simp), hmin, if_pos (c := greedyParsing = true ∨ m.2 ≥ 128) (by left; decide)]

/-- A literal or a match is recorded, and the lookahead moves on. -/
theorem matchStep_sim {input : Bytes} {d d' : Tdefl} (h : Sim input d d') (hls : d.lookaheadSize ≠ 0) (j j' : Junk) :
    ERel (fun x y => Sim input x y ∧ x.lookaheadPos + x.lookaheadSize = d.lookaheadPos + d.lookaheadSize)
      (matchStep true j d) (matchStep true j' d') := by
  have hm := findMatch_sim h
  have hds := h.ds
  have hsz := h.win.size
  have hfits := h.win.fits
  have hsmall := h.small
  have htot := h.total
  have hw := h.win.eq h.win' (a := d.lookaheadPos) (by omega) (by omega)
  have hsv := h.saved
  obtain ⟨D, N, L, rfl⟩ : ∃ D N L, d' = { d with dict := D, next := N, lz := L } := ⟨_, _, _, h.same⟩
  unfold matchStep
  dsimp only at hw ⊢
  rw [if_neg (by rw [hsv]; simp), ← hm]
  refine ERel.bind (R := Eq) (by cases findMatch true d 2 <;> rfl) ?_
  rintro m _ rfl
  generalize dropMatch (d.lookaheadPos % 32768) m = m
  -- the recorded state, moved on
  have key : ∀ (len : Nat) (lit dist : Nat → Nat) (l l' : LzBuf), LzSim l l' →
      ERel (fun x y => Sim input x y ∧ x.lookaheadPos + x.lookaheadSize = d.lookaheadPos + d.lookaheadSize)
        (do mzAssert true (len ≤ d.lookaheadSize)
            pure (moveOn len { d with totalLzBytes := (d.totalLzBytes + len) % 2 ^ 32, lz := l, litCount := lit, distCount := dist }))
        (do mzAssert true (len ≤ d.lookaheadSize)
            pure (moveOn len { d with
              totalLzBytes := (d.totalLzBytes + len) % 2 ^ 32, lz := l', litCount := lit, distCount := dist, dict := D, next := N })) := by
    intro len lit dist l l' hl
    simp only [mzAssert_true]
    by_cases hle : len ≤ d.lookaheadSize
    · rw [if_pos hle]
      show Sim input _ _ ∧ _
      have e32 : (d.lookaheadPos + len) % 2 ^ 32 = d.lookaheadPos + len := Nat.mod_eq_of_lt (by omega)
      have et : (d.totalLzBytes + len) % 2 ^ 32 = d.totalLzBytes + len := Nat.mod_eq_of_lt (by omega)
      have hl1 : d.lookaheadPos - d.dictSize ≤ d.lookaheadPos + len - min (d.dictSize + len) 32768 := by omega
      have hl2 : d.lookaheadPos + len + (d.lookaheadSize - len) = d.lookaheadPos + d.lookaheadSize := by omega
      have hl3 : d.lookaheadPos + len - min (d.dictSize + len) 32768 ≤ d.lookaheadPos + d.lookaheadSize := by omega
      unfold moveOn
      dsimp only
      rw [e32, et]
      refine ⟨?_, hl2⟩
      constructor <;> try dsimp only
      case small => exact hsmall
      case ls => have := h.ls; omega
      case ds => omega
      case win => rw [hl2]; exact h.win.mono hl1 hl3
      case win' => rw [hl2]; exact h.win'.mono hl1 hl3
      case next =>
        intro a h1 h2
        exact h.next a (by omega) (by omega)
      case hash => exact h.hash
      case lz => exact hl
      case total => omega
      case saved => exact hsv
    · rw [if_neg hle]
      rfl
  rw [parseStep_plain _ _ _ hsv, parseStep_plain j' m { d with dict := D, next := N, lz := L } hsv]
  by_cases h0 : m.1 = 0
  · rw [if_pos h0, if_pos h0]
    dsimp only
    rw [← hw]
    rw [recordLiteral_pure, recordLiteral_pure]
    simp only [bind_assoc]
    refine ERel.bind (h.lz.record j j' _ _) ?_
    intro l l' hl
    exact key 1 _ _ l l' hl
  · rw [if_neg h0, if_neg h0]
    unfold recordMatch
    simp only [bind_assoc]
    by_cases h3 : 3 ≤ m.2 ∧ 1 ≤ m.1 ∧ m.1 ≤ 32768
    · refine ERel.bind (mzAssert_sim _) ?_
      intro _ _ _
      refine ERel.bind (h.lz.record j j' _ _) ?_
      intro l l' hl
      refine ERel.bind (ERel.self (bump 32 d.distCount (distSym (m.1 - 1)))) ?_
      rintro dc _ rfl
      rw [if_pos h3.1, if_pos h3.1]
      simp only [bind_assoc]
      refine ERel.bind (ERel.self _) ?_
      rintro ls _ rfl
      refine ERel.bind (ERel.self (bump 288 d.litCount ls)) ?_
      rintro lc _ rfl
      exact key m.2 _ _ l l' hl
    · simp only [mzAssert_true]
      rw [if_neg h3]
      rfl

theorem putRaw_congr (dict dict' : Nat → UInt8) (p : Nat) (k i : Nat) (w : BitOut)
    (h : ∀ x, i ≤ x → x < i + k → dict ((p + x) % 32768) = dict' ((p + x) % 32768)) :
    putRaw dict p k i w = putRaw dict' p k i w := by
  induction k generalizing i w with
  | zero => rfl
  | succ k ih =>
    rw [putRaw, putRaw, h i le_rfl (by omega)]
    exact ih (i + 1) _ (fun x h1 h2 => h x (by omega) (by omega))

theorem putBlock_sim {input : Bytes} {d d' : Tdefl} (h : Sim input d d') (saved : BitOut) : putBlock false true d saved = putBlock false true d' saved := by
  have hc := h.lz.codes
  obtain ⟨D, N, L, rfl⟩ : ∃ D N L, d' = { d with dict := D, next := N, lz := L } := ⟨_, _, _, h.same⟩
  have hds := h.ds
  have ht := h.total
  unfold putBlock
  dsimp only at hc ⊢
  rw [← hc]
  congr 1
  funext x
  obtain ⟨w, ok⟩ := x
  dsimp only
  have hu : useRaw { d with dict := D, next := N, lz := L } saved w = useRaw d saved w := rfl
  rw [hu]
  split
  · rename_i hr
    unfold rawBlock
    dsimp only
    rw [putRaw_congr d.dict D]
    intro x h1 h2
    unfold useRaw at hr
    simp only [Bool.and_eq_true, decide_eq_true_eq] at hr
    have hr2 := hr.2
    exact h.win.eq h.win' (by omega) (by omega)
  · rfl

theorem flushBlock_sim {input : Bytes} {d d' : Tdefl} (h : Sim input d d') (j j' : Junk) (fin : Bool) (room : Nat) :
    ERel (fun x y => x.1 = y.1 ∧ Sim input x.2 y.2 ∧ x.2.lookaheadPos = d.lookaheadPos ∧ x.2.lookaheadSize = d.lookaheadSize)
      (flushBlock false true j fin room d) (flushBlock false true j' fin room d') := by
  have hb := putBlock_sim h
  have ht := h.total
  have hsmall := h.small
  have hfits := h.win.fits
  obtain ⟨D, N, L, rfl⟩ : ∃ D N L, d' = { d with dict := D, next := N, lz := L } := ⟨_, _, _, h.same⟩
  have key : ∀ (w : BitOut) (b : Bytes), Sim input
      { d with
        litCount := fun _ => 0, distCount := fun _ => 0, lz := LzBuf.empty j,
        codeBufDictPos := (d.codeBufDictPos + d.totalLzBytes) % 2 ^ 32, totalLzBytes := 0, bitBuf := w.buf, bitsIn := w.n,
        pending := b }
      { d with
        litCount := fun _ => 0, distCount := fun _ => 0, lz := LzBuf.empty j',
        codeBufDictPos := (d.codeBufDictPos + d.totalLzBytes) % 2 ^ 32, totalLzBytes := 0, bitBuf := w.buf, bitsIn := w.n,
        pending := b, dict := D, next := N } := by
    intro w b
    have e32 : (d.codeBufDictPos + d.totalLzBytes) % 2 ^ 32 = d.lookaheadPos := by
      rw [ht]; exact Nat.mod_eq_of_lt (by omega)
    rw [e32]
    constructor <;> try dsimp only
    case small => exact hsmall
    case ls => exact h.ls
    case ds => exact h.ds
    case win => exact h.win
    case win' => exact h.win'
    case next => exact h.next
    case hash => exact h.hash
    case lz => exact lzSim_empty j j'
    case total => rfl
    case saved => exact h.saved
  unfold flushBlock
  dsimp only
  refine ERel.bind (mzAssert_sim _) ?_
  intro _ _ _
  rw [← hb]
  refine ERel.bind (R := Eq) (by cases putBlock false true d _ <;> rfl) ?_
  rintro w _ rfl
  refine ERel.bind (R := Eq) (by cases (if fin = true then w.align else w).check true <;> rfl) ?_
  rintro w _ rfl
  refine ERel.bind (mzAssert_sim _) ?_
  intro _ _ _
  split
  · exact ⟨rfl, key w [], rfl, rfl⟩
  · exact ⟨rfl, key w _, rfl, rfl⟩

/-! ### The loops -/

theorem compressNormal_sim {input : Bytes} (j j' : Junk) (fin : Bool) (outSize fuel : Nat) (src out : Bytes) (d d' : Tdefl)
    (h : Sim input d d') (hsrc : src <+: input.drop (d.lookaheadPos + d.lookaheadSize)) :
    ERel (fun x y => x.1 = y.1 ∧ x.2.1 = y.2.1 ∧ Sim input x.2.2 y.2.2 ∧
        x.1 <+: input.drop (x.2.2.lookaheadPos + x.2.2.lookaheadSize))
      (compressNormal false true j fin outSize fuel src out d) (compressNormal false true j' fin outSize fuel src out d') := by
  induction fuel generalizing src out d d' with
  | zero => rfl
  | succ f ih =>
    rw [compressNormal_succ, compressNormal_succ]
    have hls : d'.lookaheadSize = d.lookaheadSize := by rw [h.same]
    rw [hls]
    by_cases hgo : src ≠ [] ∨ (fin = true ∧ d.lookaheadSize ≠ 0)
    · rw [if_pos hgo, if_pos hgo]
      obtain ⟨r, e, e', f1, f2, f3, f4, f5⟩ := fill_sim src d d' hsrc h
      rw [f1, f2]
      dsimp only
      have hle : e'.lookaheadSize = e.lookaheadSize := f3.lsEq
      by_cases hret : ¬fin = true ∧ e.lookaheadSize < 258
      · rw [if_pos hret, if_pos (by rw [hle]; exact hret)]
        exact ⟨rfl, rfl, f3, f4⟩
      · rw [if_neg hret, if_neg (by rw [hle]; exact hret)]
        have hne : e.lookaheadSize ≠ 0 := f5 (by
          rcases hgo with hgo | hgo
          · exact .inl hgo
          · exact .inr hgo.2)
        rcases (matchStep_sim f3 hne j j').cases with ⟨er, m1, m2⟩ | ⟨g, g', m1, m2, m3, m4⟩
        · rw [m1, m2]; exact rfl
        rw [m1, m2]
        dsimp only at m4 ⊢
        rw [← m4] at f4
        have hfd : flushDue g' = flushDue g := by
          unfold flushDue
          rw [m3.lz.pos, m3.totalEq]
        rw [hfd]
        split
        · rcases (flushBlock_sim m3 j j' false (outSize - out.length)).cases with ⟨er, b1, b2⟩ | ⟨⟨o, k⟩, ⟨o', k'⟩, b1, b2, b3, b4, b5, b6⟩
          · rw [b1, b2]; exact rfl
          rw [b1, b2]
          dsimp only at b3 b4 b5 b6 ⊢
          subst b3
          rw [← b5, ← b6] at f4
          have hpe : k'.pending = k.pending := b4.penEq
          rw [hpe]
          split
          · exact ⟨rfl, rfl, b4, f4⟩
          · exact ih _ _ _ _ b4 f4
        · exact ih _ _ _ _ m3 f4
    · rw [if_neg hgo, if_neg hgo]
      exact ⟨rfl, rfl, h, hsrc⟩

theorem Sim.setWants {input : Bytes} {d d' : Tdefl} (h : Sim input d d') (b : Bool) :
    Sim input { d with wantsToFinish := b } { d' with wantsToFinish := b } := by
  constructor
  case same => rw [h.same]
  case small => exact h.small
  case ls => exact h.ls
  case ds => exact h.ds
  case win => exact h.win
  case win' => exact h.win'
  case next => exact h.next
  case hash => exact h.hash
  case lz => exact h.lz
  case total => exact h.total
  case saved => exact h.saved

theorem Sim.setPending {input : Bytes} {d d' : Tdefl} (h : Sim input d d') (b : Bytes) :
    Sim input { d with pending := b } { d' with pending := b } := by
  constructor
  case same => rw [h.same]
  case small => exact h.small
  case ls => exact h.ls
  case ds => exact h.ds
  case win => exact h.win
  case win' => exact h.win'
  case next => exact h.next
  case hash => exact h.hash
  case lz => exact h.lz
  case total => exact h.total
  case saved => exact h.saved

theorem Sim.setFinished {input : Bytes} {d d' : Tdefl} (h : Sim input d d') (b : Bool) :
    Sim input { d with finished := b } { d' with finished := b } := by
  constructor
  case same => rw [h.same]
  case small => exact h.small
  case ls => exact h.ls
  case ds => exact h.ds
  case win => exact h.win
  case win' => exact h.win'
  case next => exact h.next
  case hash => exact h.hash
  case lz => exact h.lz
  case total => exact h.total
  case saved => exact h.saved

/-- What `tdefl_compress` comes back with in the two runs. -/
def TdSim (input : Bytes) (x y : Bytes × Bytes × Tdefl × TdStatus) : Prop :=
  x.1 = y.1 ∧ x.2.1 = y.2.1 ∧ x.2.2.2 = y.2.2.2 ∧ Sim input x.2.2.1 y.2.2.1 ∧
    x.1 <+: input.drop (x.2.2.1.lookaheadPos + x.2.2.1.lookaheadSize)

theorem tdefl_sim {input : Bytes} (j j' : Junk) (fuel : Nat) (fin : Bool) (outSize : Nat) (src : Bytes) (prev : TdStatus) (d d' : Tdefl)
    (h : Sim input d d') (hsrc : src <+: input.drop (d.lookaheadPos + d.lookaheadSize)) :
    ERel (TdSim input) (tdeflCompress false true j fuel fin outSize src prev d) (tdeflCompress false true j' fuel fin outSize src prev d') := by
  unfold tdeflCompress
  have hw : d'.wantsToFinish = d.wantsToFinish := h.wantsEq
  have hp : d'.pending = d.pending := h.penEq
  have hf : d'.finished = d.finished := h.finEq
  dsimp only
  rw [hw, hp, hf]
  by_cases h1 : prev ≠ .okay ∨ (d.wantsToFinish = true ∧ ¬fin = true)
  · rw [if_pos h1, if_pos h1]
    exact ⟨rfl, rfl, rfl, h, hsrc⟩
  rw [if_neg h1, if_neg h1]
  by_cases h2 : d.pending ≠ [] ∨ d.finished = true
  · rw [if_pos h2, if_pos h2]
    unfold flushOutput
    dsimp only
    have hs := (h.setWants (d.wantsToFinish || fin)).setPending
      (d.pending.drop (min (outSize - ([] : Bytes).length) d.pending.length))
    dsimp only at hs
    rw [hf] at hs
    exact ⟨rfl, rfl, rfl, hs, hsrc⟩
  rw [if_neg h2, if_neg h2]
  have hs : Sim input { d with wantsToFinish := d.wantsToFinish || fin }
      { d' with wantsToFinish := d.wantsToFinish || fin, pending := d.pending, finished := d.finished } := by
    have := h.setWants (d.wantsToFinish || fin)
    rw [hp, hf] at this
    exact this
  rcases (compressNormal_sim j j' fin outSize fuel src [] _ _ hs hsrc).cases with ⟨er, m1, m2⟩ | ⟨⟨r, o, g⟩, ⟨r', o', g'⟩, m1, m2, m3, m4, m5, m6⟩
  · rw [m1, m2]; exact rfl
  rw [m1, m2]
  dsimp only at m3 m4 m5 m6 ⊢
  subst m3 m4
  have hfu : ERel (fun x y => x.1 = y.1 ∧ Sim input x.2 y.2 ∧ x.2.lookaheadPos = g.lookaheadPos ∧ x.2.lookaheadSize = g.lookaheadSize)
      (finishUp false true j fin outSize r o g) (finishUp false true j' fin outSize r o g') := by
    unfold finishUp
    rw [m5.lsEq, m5.penEq]
    split
    · rcases (flushBlock_sim m5 j j' true (outSize - o.length)).cases with ⟨er, b1, b2⟩ | ⟨⟨o1, k⟩, ⟨o2, k'⟩, b1, b2, b3, b4, b5, b6⟩
      · rw [b1, b2]; exact rfl
      rw [b1, b2]
      dsimp only at b3 b4 b5 b6 ⊢
      subst b3
      exact ⟨rfl, b4.setFinished true, b5, b6⟩
    · exact ⟨rfl, m5, rfl, rfl⟩
  rcases hfu.cases with ⟨er, b1, b2⟩ | ⟨⟨o1, k⟩, ⟨o2, k'⟩, b1, b2, b3, b4, b5, b6⟩
  · rw [b1, b2]; exact rfl
  rw [b1, b2]
  dsimp only at b3 b4 b5 b6 ⊢
  subst b3
  unfold flushOutput
  dsimp only
  rw [b4.penEq, b4.finEq]
  have hs2 := b4.setPending (k.pending.drop (min (outSize - o1.length) k.pending.length))
  rw [b4.finEq] at hs2
  exact ⟨rfl, rfl, rfl, hs2, by rw [← b5, ← b6] at m6; exact m6⟩

/-- `mz_stream` in the two runs. -/
structure StSim (input : Bytes) (s s' : DeflStream) : Prop where
  d : Sim input s.d s'.d
  prev : s'.prev = s.prev
  inp : s'.inp = s.inp
  av : s'.availOut = s.availOut
  out : s'.out = s.out
  left : s.inp <+: input.drop (s.d.lookaheadPos + s.d.lookaheadSize)

theorem mzDeflateLoop_sim {input : Bytes} (j j' : Junk) (fuel : Nat) (fin : Bool) (oi oo f : Nat) (s s' : DeflStream)
    (h : StSim input s s') :
    ERel (fun x y => x.1 = y.1 ∧ StSim input x.2 y.2) (mzDeflateLoop false true j fuel fin oi oo f s) (mzDeflateLoop false true j' fuel fin oi oo f s') := by
  induction f generalizing s s' with
  | zero => rfl
  | succ f ih =>
    rw [mzDeflateLoop, mzDeflateLoop, h.av, h.inp, h.prev, h.out]
    rcases (tdefl_sim j j' fuel fin s.availOut s.inp s.prev _ _ h.d h.left).cases with ⟨er, m1, m2⟩ |
      ⟨⟨r, o, g, st⟩, ⟨r', o', g', st'⟩, m1, m2, m3, m4, m5, m6, m7⟩
    · rw [m1, m2]; exact rfl
    rw [m1, m2]
    dsimp only at m3 m4 m5 m6 m7 ⊢
    subst m3 m4 m5
    have hs : StSim input ⟨g, st, r, s.availOut - o.length, s.out ++ o⟩ ⟨g', st, r, s.availOut - o.length, s.out ++ o⟩ :=
      ⟨m6, rfl, rfl, rfl, rfl, m7⟩
    by_cases h1 : st = .badParam
    · rw [if_pos h1, if_pos h1]; exact ⟨rfl, hs⟩
    rw [if_neg h1, if_neg h1]
    by_cases h2 : st = .done
    · rw [if_pos h2, if_pos h2]; exact ⟨rfl, hs⟩
    rw [if_neg h2, if_neg h2]
    by_cases h3 : s.availOut - o.length = 0
    · rw [if_pos h3, if_pos h3]; exact ⟨rfl, hs⟩
    rw [if_neg h3, if_neg h3]
    by_cases h4 : r = [] ∧ ¬fin = true
    · rw [if_pos h4, if_pos h4]
      by_cases h5 : r.length ≠ oi ∨ s.availOut - o.length ≠ oo
      · rw [if_pos h5, if_pos h5]; exact ⟨rfl, hs⟩
      · rw [if_neg h5, if_neg h5]; exact ⟨rfl, hs⟩
    · rw [if_neg h4, if_neg h4]
      exact ih _ _ hs

theorem mzDeflate_sim {input : Bytes} (j j' : Junk) (fuel : Nat) (fin : Bool) (s s' : DeflStream) (h : StSim input s s') :
    ERel (fun x y => x.1 = y.1 ∧ StSim input x.2 y.2) (mzDeflate false true j fuel fin s) (mzDeflate false true j' fuel fin s') := by
  unfold mzDeflate
  rw [h.av, h.prev, h.inp]
  split
  · exact ⟨rfl, h⟩
  · split
    · exact ⟨rfl, h⟩
    · exact mzDeflateLoop_sim j j' fuel fin _ _ fuel s s' h

theorem inner_sim {input : Bytes} (j j' : Junk) (fuel : Nat) (fin : Bool) (f : Nat) (s s' : DeflStream) (output : Bytes)
    (h : StSim input s s') :
    ERel (fun x y => x.1 = y.1 ∧ StSim input x.2.1 y.2.1 ∧ x.2.2 = y.2.2)
      (npyDeflateInner false true j fuel fin f s output) (npyDeflateInner false true j' fuel fin f s' output) := by
  induction f generalizing s s' output with
  | zero => rfl
  | succ f ih =>
    rw [npyDeflateInner, npyDeflateInner]
    rcases (mzDeflate_sim j j' fuel fin { s with availOut := CHUNK, out := [] } { s' with availOut := CHUNK, out := [] }
      ⟨h.d, h.prev, h.inp, rfl, rfl, h.left⟩).cases with ⟨er, m1, m2⟩ | ⟨⟨ret, g⟩, ⟨ret', g'⟩, m1, m2, m3, m4⟩
    · rw [m1, m2]; exact rfl
    rw [m1, m2]
    dsimp only at m3 m4 ⊢
    subst m3
    rw [m4.out, m4.av, m4.inp]
    by_cases h1 : true = true ∧ ret = .dataError
    · rw [if_pos h1, if_pos h1]; exact rfl
    rw [if_neg h1, if_neg h1]
    by_cases h2 : g.availOut = 0
    · rw [if_pos h2, if_pos h2]; exact ih _ _ _ m4
    rw [if_neg h2, if_neg h2]
    by_cases h3 : true = true ∧ g.inp ≠ []
    · rw [if_pos h3, if_pos h3]; exact rfl
    rw [if_neg h3, if_neg h3]
    exact ⟨rfl, m4, rfl⟩

theorem outer_sim (j j' : Junk) (fuel : Nat) (f : Nat) {input output later : Bytes} {s s' : DeflStream} {st : IStream}
    (h : Live input output s.d later) (hprev : s.prev = .okay) (hw : s.d.wantsToFinish = false) (hg : st.good = true)
    (hr : st.rest = later) (hfu : input.length + 260 ≤ fuel) (hsim : Sim input s.d s'.d) (hprev' : s'.prev = .okay)
    (hs : s'.availOut = s.availOut ∧ s'.out = s.out) :
    npyDeflateOuter false true j fuel f s st output = npyDeflateOuter false true j' fuel f s' st output := by
  induction f generalizing s s' st output later with
  | zero => rfl
  | succ f ih =>
    have hls : s.d.lookaheadSize ≤ 258 := by
      obtain ⟨_, _, h1, -⟩ := h
      exact h1.ls
    have hdrop : input.drop (s.d.lookaheadPos + s.d.lookaheadSize) = later := by
      obtain ⟨_, _, -, -, h3, -⟩ := h
      exact h3
    have hlen : later.length ≤ input.length := by
      rw [← hdrop, List.length_drop]
      omega
    have hgood := (IStream.good_iff st).1 hg
    rw [npyDeflateOuter, npyDeflateOuter]
    by_cases hc : CHUNK ≤ st.rest.length
    · have hread : IStream.read CHUNK st = (.ok (st.rest.take CHUNK), { st with rest := st.rest.drop CHUNK }) := by
        show (if st.good then _ else _) = _
        rw [if_pos hg, if_pos hc]
      rw [hread]
      dsimp only
      have hcp : 0 < CHUNK := by decide
      obtain ⟨ret, s1, output', e1, e2, e3, e4, e5⟩ := inner_more true j fuel fuel (input := input) (output := output) (later := later.drop CHUNK)
        (s := { s with inp := later.take CHUNK }) (by simp only [List.take_append_drop]; exact h) hprev hw
        (.inl (by rw [List.length_take]; simp only; omega)) (by rw [List.length_take]; simp only; omega)
      rw [hgood.1, hr]
      rcases (inner_sim (input := input) j j' fuel false fuel { s with inp := later.take CHUNK } { s' with inp := later.take CHUNK } output
        ⟨hsim, by simp only [hprev, hprev'], rfl, hs.1, hs.2, by simp only [hdrop]; exact List.take_prefix _ _⟩).cases with ⟨er, m1, m2⟩ |
          ⟨⟨ret1, g, o1⟩, ⟨ret2, g', o2⟩, m1, m2, m3, m4, m5⟩
      · rw [m1, m2]
      rw [m1, m2]
      rw [e1] at m1
      simp only [Except.ok.injEq, Prod.mk.injEq] at m1
      obtain ⟨rfl, rfl, rfl⟩ := m1
      dsimp only at m3 m4 m5 ⊢
      subst m3 m5
      rw [if_neg (by simp), if_neg (by simp)]
      refine ih e2 e3 e4 ?_ rfl m4.d (by rw [m4.prev, e3]) ⟨m4.av, m4.out⟩
      show (!false && !st.fail) = true
      rw [hgood.2]
      rfl
    · have hread : IStream.read CHUNK st = (.ok st.rest, { st with rest := [], eof := true, fail := true }) := by
        show (if st.good then _ else _) = _
        rw [if_pos hg, if_neg hc]
      rw [hread]
      dsimp only
      rw [hr]
      rcases (inner_sim (input := input) j j' fuel true fuel { s with inp := later } { s' with inp := later } output
        ⟨hsim, by simp only [hprev, hprev'], rfl, hs.1, hs.2, by simp only [hdrop]; exact List.prefix_rfl⟩).cases with ⟨er, m1, m2⟩ |
          ⟨⟨ret1, g, o1⟩, ⟨ret2, g', o2⟩, m1, m2, m3, m4, m5⟩
      · rw [m1, m2]
      rw [m1, m2]
      dsimp only at m3 m4 m5 ⊢
      subst m3 m5
      rw [if_pos rfl, if_pos rfl]

theorem sim_init (j j' : Junk) (input : Bytes) (h : input.length < 2 ^ 32) : Sim input (Tdefl.init j) (Tdefl.init j') := by
  constructor
  case same => rfl
  case small => exact h
  case ls => simp [Tdefl.init]
  case ds => simp [Tdefl.init]
  case win => exact win_empty input _ 0 (by omega)
  case win' => exact win_empty input _ 0 (by omega)
  case next => intro a h1 h2; simp only [Tdefl.init] at h2; omega
  case hash => intro k; simp [Tdefl.init]
  case lz => exact lzSim_empty j j'
  case total => rfl
  case saved => rfl

/-- What `npy_deflate` does does not depend on uninitialised memory. -/
theorem npyDeflate_junk (j j' : Junk) (fuel : Nat) (input : Bytes) (h : input.length < 2 ^ 32)
    (hf : input.length + 260 ≤ fuel) : npyDeflate false true j fuel input = npyDeflate false true j' fuel input := by
  unfold npyDeflate
  exact outer_sim j j' fuel fuel (live_init j input h) rfl rfl rfl rfl hf (sim_init j j' input h) rfl ⟨rfl, rfl⟩

end Npy
