import Verif.Model.InflateMem
import Mathlib.Tactic.Ring
/-!
# The decompressor over the memory of the code is the decompressor over the list of written bytes
-/

namespace Npy

variable {big : Bool}

/-! ### Copying a match -/

/-- `n` bytes one after the other. -/
def DictMem.bytes : Nat → DictMem → Nat → Nat → Option DictMem
  | 0, m, _, _ => some m
  | n + 1, m, cur, src => match m.move1 cur src with
    | none => none
    | some m => DictMem.bytes n m (cur + 1) (src + 1)

theorem DictMem.bytes_add (a b : Nat) (m : DictMem) (cur src : Nat) :
    DictMem.bytes (a + b) m cur src = (DictMem.bytes a m cur src).bind fun m => DictMem.bytes b m (cur + a) (src + a) := by
  induction a generalizing m cur src with
  | zero => simp [DictMem.bytes]
  | succ a ih =>
    rw [show a + 1 + b = (a + b) + 1 by ring, DictMem.bytes, DictMem.bytes]
    cases h : m.move1 cur src with
    | none => rfl
    | some m' =>
      simp only []
      rw [ih, show cur + 1 + a = cur + (a + 1) by ring, show src + 1 + a = src + (a + 1) by ring]

theorem DictMem.set_ne (m : DictMem) {i j : Nat} (c : UInt8) (h : j ≠ i) : m.set i c j = m j := by simp [DictMem.set, h]

theorem DictMem.move4_eq (m : DictMem) (cur src : Nat) (h : cur ≤ src ∨ src + 4 ≤ cur) :
    m.move4 cur src = DictMem.bytes 4 m cur src := by
  unfold DictMem.move4
  by_cases hb : cur + 3 < 32768 ∧ src + 3 < 32768
  · rw [if_pos hb]
    have e : ∀ k, 0 < k → k < 4 → ∀ j, j < k → src + k ≠ cur + j := by omega
    simp only [DictMem.bytes, DictMem.move1]
    rw [if_pos (by omega)]
    cases h0 : m src with
    | none => rfl
    | some a =>
      simp only [Option.map_some]
      rw [if_pos (by omega), DictMem.set_ne _ _ (by omega)]
      cases h1 : m (src + 1) with
      | none => rfl
      | some b =>
        simp only [Option.map_some]
        rw [if_pos (by omega), DictMem.set_ne _ _ (by omega), DictMem.set_ne _ _ (by omega)]
        cases h2 : m (src + 1 + 1) with
        | none => simp [show src + 2 = src + 1 + 1 by ring, h2]
        | some c =>
          simp only [Option.map_some]
          rw [if_pos (by omega), DictMem.set_ne _ _ (by omega), DictMem.set_ne _ _ (by omega),
            DictMem.set_ne _ _ (by omega)]
          cases h3 : m (src + 1 + 1 + 1) with
          | none => simp [show src + 2 = src + 1 + 1 by ring, show src + 3 = src + 1 + 1 + 1 by ring, h2, h3]
          | some d =>
            simp [show src + 2 = src + 1 + 1 by ring, show src + 3 = src + 1 + 1 + 1 by ring,
              show cur + 2 = cur + 1 + 1 by ring, show cur + 3 = cur + 1 + 1 + 1 by ring, h2, h3]
  · rw [if_neg hb]
    symm
    cases hx : DictMem.bytes 4 m cur src with
    | none => rfl
    | some m' =>
      exfalso
      simp only [DictMem.bytes, DictMem.move1] at hx
      split at hx
      · simp at hx
      · split at hx
        · simp at hx
        · split at hx
          · simp at hx
          · split at hx
            · simp at hx
            · rename_i h4
              split at h4
              · omega
              · simp at h4

theorem DictMem.loop8_eq (n : Nat) (m : DictMem) (cur src : Nat) (h : cur ≤ src ∨ src + 4 ≤ cur) :
    m.loop8 cur src n = DictMem.bytes (8 * (n + 1)) m cur src := by
  have round : ∀ (m : DictMem) cur src, (cur ≤ src ∨ src + 4 ≤ cur) →
      (m.move4 cur src >>= fun m => m.move4 (cur + 4) (src + 4)) = DictMem.bytes 8 m cur src := by
    intro m cur src h
    rw [DictMem.move4_eq m cur src h, show (8 : Nat) = 4 + 4 from rfl, DictMem.bytes_add]
    show Option.bind _ _ = _
    congr 1
    funext m'
    rw [DictMem.move4_eq m' _ _ (by omega)]
  induction n generalizing m cur src with
  | zero => rw [DictMem.loop8]; exact round m cur src h
  | succ n ih =>
    rw [DictMem.loop8, show 8 * (n + 1 + 1) = 8 + 8 * (n + 1) by ring, DictMem.bytes_add, ← round m cur src h]
    cases m.move4 cur src with
    | none => rfl
    | some m1 =>
      show (m1.move4 (cur + 4) (src + 4) >>= _) = Option.bind (m1.move4 (cur + 4) (src + 4)) _
      cases m1.move4 (cur + 4) (src + 4) with
      | none => rfl
      | some m2 => exact ih m2 (cur + 8) (src + 8) (by omega)

theorem DictMem.tail2_eq (m : DictMem) (cur src n : Nat) (h : n < 3) :
    m.tail2 cur src (n : Int) = DictMem.bytes n m cur src := by
  unfold DictMem.tail2
  match n, h with
  | 0, _ => simp [DictMem.bytes]
  | 1, _ =>
    simp only [DictMem.bytes, Nat.cast_one, gt_iff_lt, zero_lt_one, if_true, lt_irrefl, if_false]
    cases m.move1 cur src <;> rfl
  | 2, _ =>
    simp only [DictMem.bytes]
    rw [if_pos (by decide)]
    cases m.move1 cur src with
    | none => rfl
    | some m1 =>
      simp only [Option.bind_eq_bind, Option.bind_some]
      rw [if_pos (by decide)]
      cases m1.move1 (cur + 1) (src + 1) <;> rfl

theorem DictMem.loop3_eq (f n : Nat) (m : DictMem) (cur src : Nat) (hf : n < f) (hn : 3 ≤ n) :
    DictMem.loop3 f m cur src (n : Int) = (DictMem.bytes n m cur src).map (·, cur + n) := by
  induction f generalizing n m cur src with
  | zero => omega
  | succ f ih =>
    rw [DictMem.loop3, show n = 3 + (n - 3) by omega, DictMem.bytes_add]
    generalize hk : n - 3 = k
    have e : (((3 + k : Nat) : Int)) - 3 = (k : Int) := by omega
    simp only [e]
    have tl : ∀ m' : DictMem, (if (k : Int) > 2 then DictMem.loop3 f m' (cur + 3) (src + 3) (k : Int)
        else do
          let m ← m'.tail2 (cur + 3) (src + 3) (k : Int)
          pure (m, cur + 3 + (k : Int).toNat)) = (DictMem.bytes k m' (cur + 3) (src + 3)).map (·, cur + (3 + k)) := by
      intro m'
      by_cases h2 : 2 < k
      · rw [if_pos (by omega), ih k m' _ _ (by omega) (by omega)]
        simp only [Nat.add_assoc]
      · rw [if_neg (by omega), DictMem.tail2_eq _ _ _ _ (by omega)]
        cases DictMem.bytes k m' (cur + 3) (src + 3) with
        | none => rfl
        | some m'' => simp [Nat.add_assoc]
    simp only [DictMem.bytes]
    cases h0 : m.move1 cur src with
    | none => rfl
    | some m1 =>
      simp only [Option.bind_eq_bind, Option.bind_some]
      cases h1 : m1.move1 (cur + 1) (src + 1) with
      | none => rfl
      | some m2 =>
        simp only [Option.bind_some]
        rw [show cur + 1 + 1 = cur + 2 by ring, show src + 1 + 1 = src + 2 by ring]
        cases h3 : m2.move1 (cur + 2) (src + 2) with
        | none => rfl
        | some m3 =>
          simp only [Option.bind_some]
          exact tl m3

/-- Both fast ways put the same bytes as the byte-wise one. -/
theorem DictMem.copyFast_eq (m : DictMem) (cur src dist n : Nat) (hn : 3 ≤ n)
    (h : n ≤ dist → cur ≤ src ∨ src + dist ≤ cur) :
    m.copyFast cur src dist n = (DictMem.bytes n m cur src).map (·, cur + n) := by
  unfold DictMem.copyFast
  by_cases hc : n ≥ 9 ∧ n ≤ dist
  · rw [if_pos hc]
    have hd := h hc.2
    dsimp only
    rw [DictMem.loop8_eq _ _ _ _ (by omega)]
    have e8 : 8 * (n / 8 - 1 + 1) = 8 * (n / 8) := by omega
    rw [e8]
    generalize hq : 8 * (n / 8) = q
    generalize hr : n % 8 = r
    have en : n = q + r := by omega
    rw [en, DictMem.bytes_add]
    cases DictMem.bytes q m cur src with
    | none => rfl
    | some m1 =>
      simp only [Option.bind_eq_bind, Option.bind_some]
      by_cases h3 : r < 3
      · rw [if_pos h3, DictMem.tail2_eq _ _ _ _ h3]
        cases DictMem.bytes r m1 (cur + q) (src + q) with
        | none => rfl
        | some m2 => simp [Nat.add_assoc]
      · rw [if_neg h3, DictMem.loop3_eq _ _ _ _ _ (by omega) (by omega)]
        simp only [Nat.add_assoc]
  · rw [if_neg hc]
    exact DictMem.loop3_eq _ _ _ _ _ (by omega) hn

/-- A `counter` of 0: three bytes. -/
theorem DictMem.copyFast_zero (m : DictMem) (cur src dist : Nat) :
    m.copyFast cur src dist 0 = (DictMem.bytes 3 m cur src).map (·, cur + 3) := by
  unfold DictMem.copyFast
  rw [if_neg (by omega)]
  simp only [DictMem.loop3, DictMem.bytes]
  cases h0 : m.move1 cur src with
  | none => rfl
  | some m1 =>
    simp only [Option.bind_eq_bind, Option.bind_some]
    cases h1 : m1.move1 (cur + 1) (src + 1) with
    | none => rfl
    | some m2 =>
      simp only [Option.bind_some]
      rw [show cur + 1 + 1 = cur + 2 by ring, show src + 1 + 1 = src + 2 by ring]
      cases h3 : m2.move1 (cur + 2) (src + 2) with
      | none => rfl
      | some m3 => simp [DictMem.tail2]

theorem dictSrc_eq (cur dist : Nat) (hc : cur ≤ 32768) (hd : dist ≤ 32768) : dictSrc cur dist = (cur + 32768 - dist) % 32768 := by
  unfold dictSrc
  rw [show (32767 : Nat) = 2 ^ 15 - 1 from rfl, Nat.and_two_pow_sub_one_eq_mod]
  omega

theorem DictMem.slow_eq_bytes (dist n : Nat) (m : DictMem) (cur : Nat) (hd : dist ≤ 32768)
    (h : max cur (dictSrc cur dist) + n ≤ 32768) :
    DictMem.slow dist n m cur = (DictMem.bytes n m cur (dictSrc cur dist)).map (0, ·, cur + n) := by
  induction n generalizing m cur with
  | zero => simp [DictMem.slow, DictMem.bytes]
  | succ n ih =>
    rw [DictMem.slow, if_neg (by omega), DictMem.bytes]
    cases m.move1 cur (dictSrc cur dist) with
    | none => rfl
    | some m1 =>
      simp only []
      have e : n ≠ 0 → dictSrc (cur + 1) dist = dictSrc cur dist + 1 := by
        intro hn
        rw [dictSrc_eq cur dist (by omega) hd] at h ⊢
        rw [dictSrc_eq _ _ (by omega) hd]
        omega
      by_cases hn : n = 0
      · subst hn
        simp [DictMem.slow, DictMem.bytes]
      · rw [ih m1 (cur + 1) (by rw [e hn]; omega), e hn, show cur + 1 + n = cur + (n + 1) by ring]

/-- The memory of the code, the cursor, and the list of all bytes written. -/
structure DictRel (m : DictMem) (cur : Nat) (hist : Bytes) : Prop where
  le : cur ≤ 32768
  cell : ∀ j < 32768, m ((cur + 32767 - j) % 32768) = hist[j]?

theorem DictRel.put {m : DictMem} {cur : Nat} {hist : Bytes} (h : DictRel m cur hist) (hc : cur < 32768) (c : UInt8) :
    DictRel (m.set cur c) (cur + 1) (c :: hist) where
  le := hc
  cell := by
    intro j hj
    cases j with
    | zero => simp [DictMem.set, show (cur + 1 + 32767) % 32768 = cur by omega]
    | succ j =>
      rw [DictMem.set_ne _ _ (by omega), show cur + 1 + 32767 - (j + 1) = cur + 32767 - j by omega, h.cell j (by omega)]
      rfl

theorem DictRel.src {m : DictMem} {cur : Nat} {hist : Bytes} (h : DictRel m cur hist) {d : Nat} (hd : d ≤ 32768) :
    m (dictSrc cur d) = hist[(d + 32767) % 32768]? := by
  have := h.le
  have e : (cur + 32767 - (d + 32767) % 32768) % 32768 = (cur + 32768 - d) % 32768 := by omega
  rw [dictSrc_eq cur d h.le hd, ← h.cell _ (Nat.mod_lt _ (by omega)), e]

/-- The list-level coroutine copying `n` bytes does what the byte-wise loop does in memory. -/
theorem slow_sim {m : DictMem} {cur : Nat} {hist : Bytes} (h : DictRel m cur hist) (d : Nat) (hd : d ≤ 32768) (n : Nat)
    (k : Unit → Co Unit) (inp : Bytes) :
    match DictMem.slow d n m cur with
    | none => (((copyMatch d n).bind k).resume inp hist (32768 - cur)).1 = .ub
    | some (0, m', cur') => ∃ hist', DictRel m' cur' hist' ∧
        ((copyMatch d n).bind k).resume inp hist (32768 - cur) = (k ()).resume inp hist' (32768 - cur')
    | some (n' + 1, m', cur') => ∃ hist', DictRel m' cur' hist' ∧ cur' = 32768 ∧
        ((copyMatch d n).bind k).resume inp hist (32768 - cur) =
          (.hasMoreOutput, ⟨(copyMatch d (n' + 1)).bind k, inp, hist', 0⟩) := by
  induction n generalizing m cur hist with
  | zero =>
    simp only [DictMem.slow]
    exact ⟨hist, h, rfl⟩
  | succ n ih =>
    rw [DictMem.slow]
    by_cases hc : cur ≥ 32768
    · rw [if_pos hc]
      have := h.le
      refine ⟨hist, h, by omega, ?_⟩
      rw [show 32768 - cur = 0 by omega]
      rfl
    · rw [if_neg hc]
      have hsrc := h.src hd
      have hlt : dictSrc cur d < 32768 := by rw [dictSrc_eq cur d h.le hd]; omega
      obtain ⟨r, hr⟩ : ∃ r, 32768 - cur = r + 1 := ⟨32768 - cur - 1, by omega⟩
      have step : ((copyMatch d (n + 1)).bind k).resume inp hist (32768 - cur) =
          match hist[(d + 32767) % 32768]? with
          | none => (.ub, ⟨.stop .ub, inp, hist, r + 1⟩)
          | some c => ((copyMatch d n).bind k).resume inp (c :: hist) r := by
        rw [hr]
        rfl
      rw [step, DictMem.move1, if_pos (by omega), hsrc]
      cases hist[(d + 32767) % 32768]? with
      | none => rfl
      | some c =>
        have := ih (h.put (by omega) c)
        rw [show 32768 - (cur + 1) = r by omega] at this
        exact this

/-! ### Programs -/

/-- The memory-level program `p` and the list-level program `q` do the same; the values returned satisfy `P`. -/
inductive MemSim {α : Type} (P : α → Prop) : CoM α → Co α → Prop
  | pure {a} : P a → MemSim P (.pure a) (.pure a)
  | stop {r} : MemSim P (.stop r) (.stop r)
  | getByte {k k'} : (∀ c, MemSim P (k c) (k' c)) → MemSim P (.getByte k) (.getByte k')
  | availIn {k k'} : (∀ c, MemSim P (k c) (k' c)) → MemSim P (.availIn k) (.availIn k')
  | availOut {k k'} : (∀ c, MemSim P (k c) (k' c)) → MemSim P (.availOut k) (.availOut k')
  | waitOut {k k'} : MemSim P k k' → MemSim P (.waitOut k) (.waitOut k')
  | put {c k k'} : MemSim P k k' → MemSim P (.put c k) (.put c k')
  | copy {d n k k'} : d ≤ 32768 → n = 0 ∨ 3 ≤ n → MemSim P k k' → MemSim P (.copy d n k) ((putMatch n d).bind fun _ => k')
  | copySlow {d n k k'} : d ≤ 32768 → MemSim P k k' → MemSim P (.copySlow d n k) ((copyMatch d n).bind fun _ => k')

theorem Co.bind_assoc' {α β γ : Type} (p : Co α) (f : α → Co β) (g : β → Co γ) :
    (p.bind f).bind g = p.bind fun a => (f a).bind g := by
  induction p with
  | pure a => rfl
  | stop r => rfl
  | getByte k ih => simp only [Co.bind, ih]
  | availIn k ih => simp only [Co.bind, ih]
  | availOut k ih => simp only [Co.bind, ih]
  | waitOut k ih => simp only [Co.bind, ih]
  | put b k ih => simp only [Co.bind, ih]
  | putBack d k ih => simp only [Co.bind, ih]

theorem MemSim.bind {α β : Type} {P : α → Prop} {Q : β → Prop} {p : CoM α} {q : Co α} {f : α → CoM β} {g : α → Co β}
    (h : MemSim P p q) (hf : ∀ a, P a → MemSim Q (f a) (g a)) : MemSim Q (p.bind f) (q.bind g) := by
  induction h with
  | pure h => exact hf _ h
  | stop => exact .stop
  | getByte _ ih => exact .getByte ih
  | availIn _ ih => exact .availIn ih
  | availOut _ ih => exact .availOut ih
  | waitOut _ ih => exact .waitOut ih
  | put _ ih => exact .put ih
  | copy hd hn _ ih => rw [Co.bind_assoc']; exact .copy hd hn ih
  | copySlow hd _ ih => rw [Co.bind_assoc']; exact .copySlow hd ih

/-- All values a program can return satisfy `P`, and it copies no match. -/
inductive Co.Rets {α : Type} (P : α → Prop) : Co α → Prop
  | pure {a} : P a → Rets P (.pure a)
  | stop {r} : Rets P (.stop r)
  | getByte {k} : (∀ c, Rets P (k c)) → Rets P (.getByte k)
  | availIn {k} : (∀ c, Rets P (k c)) → Rets P (.availIn k)
  | availOut {k} : (∀ c, Rets P (k c)) → Rets P (.availOut k)
  | waitOut {k} : Rets P k → Rets P (.waitOut k)
  | put {c k} : Rets P k → Rets P (.put c k)

theorem Co.Rets.bind {α β : Type} {P : α → Prop} {Q : β → Prop} {p : Co α} {f : α → Co β} (h : p.Rets P)
    (hf : ∀ a, P a → (f a).Rets Q) : (p.bind f).Rets Q := by
  induction h with
  | pure h => exact hf _ h
  | stop => exact .stop
  | getByte _ ih => exact .getByte ih
  | availIn _ ih => exact .availIn ih
  | availOut _ ih => exact .availOut ih
  | waitOut _ ih => exact .waitOut ih
  | put _ ih => exact .put ih

theorem Co.Rets.sim {α : Type} {P : α → Prop} {p : Co α} (h : p.Rets P) : MemSim P p.toM p := by
  induction h with
  | pure h => exact .pure h
  | stop => exact .stop
  | getByte _ ih => exact .getByte ih
  | availIn _ ih => exact .availIn ih
  | availOut _ ih => exact .availOut ih
  | waitOut _ ih => exact .waitOut ih
  | put _ ih => exact .put ih

theorem Co.Rets.mono {α : Type} {P Q : α → Prop} {p : Co α} (h : p.Rets P) (hPQ : ∀ a, P a → Q a) : p.Rets Q := by
  induction h with
  | pure h => exact .pure (hPQ _ h)
  | stop => exact .stop
  | getByte _ ih => exact .getByte ih
  | availIn _ ih => exact .availIn ih
  | availOut _ ih => exact .availOut ih
  | waitOut _ ih => exact .waitOut ih
  | put _ ih => exact .put ih

abbrev Any {α : Type} (_ : α) : Prop := True

theorem coByte_rets : coByte.Rets Any := .getByte fun _ => .pure trivial
theorem coAvailIn_rets : coAvailIn.Rets Any := .availIn fun _ => .pure trivial
theorem coAvailOut_rets : coAvailOut.Rets Any := .availOut fun _ => .pure trivial
theorem coWaitOut_rets : coWaitOut.Rets Any := .waitOut (.pure trivial)
theorem coPut_rets (c : UInt8) : (coPut c).Rets Any := .put (.pure trivial)

theorem needBits_rets (n f : Nat) (b : BitBuf) : (needBits n f b).Rets Any := by
  induction f generalizing b with
  | zero => exact .stop
  | succ f ih =>
    refine Co.Rets.bind coByte_rets fun c _ => ?_
    dsimp only
    split
    · exact ih _
    · exact .pure trivial

theorem ensureBits_rets (n : Nat) (b : BitBuf) : (ensureBits n b).Rets Any := by
  unfold ensureBits
  split
  · exact needBits_rets _ _ _
  · exact .pure trivial

theorem getBits_rets (n : Nat) (b : BitBuf) : (getBits n b).Rets fun r => r.1 < 2 ^ n := by
  refine Co.Rets.bind (ensureBits_rets n b) fun b _ => .pure ?_
  show b.buf &&& ((1 <<< n) - 1) < 2 ^ n
  rw [Nat.one_shiftLeft, Nat.and_two_pow_sub_one_eq_mod]
  exact Nat.mod_lt _ (Nat.two_pow_pos n)

theorem extraBits_rets (n base : Nat) (b : BitBuf) : (extraBits n base b).Rets fun r => base ≤ r.1 ∧ r.1 < base + 2 ^ n := by
  unfold extraBits
  split
  · refine Co.Rets.bind (getBits_rets n b) fun r h => .pure ?_
    show base ≤ base + r.1 ∧ base + r.1 < _
    omega
  · refine .pure ?_
    have := Nat.two_pow_pos n
    exact ⟨Nat.le_refl _, by show base < _; omega⟩

theorem huffFill_rets (t : HuffTable) (f : Nat) (b : BitBuf) : (huffFill t f b).Rets Any := by
  induction f generalizing b with
  | zero => exact .stop
  | succ f ih =>
    unfold huffFill
    split
    · exact .pure trivial
    · refine Co.Rets.bind coByte_rets fun c _ => ?_
      dsimp only
      split
      · exact ih _
      · exact .pure trivial

theorem huffRefill_rets (t : HuffTable) (b : BitBuf) : (huffRefill t b).Rets Any := by
  unfold huffRefill
  split
  · refine Co.Rets.bind coAvailIn_rets fun n _ => ?_
    split
    · exact huffFill_rets _ _ _
    · exact Co.Rets.bind coByte_rets fun _ _ => Co.Rets.bind coByte_rets fun _ _ => .pure trivial
  · exact .pure trivial

theorem huffDecode_rets (t : HuffTable) (b : BitBuf) : (huffDecode t b).Rets Any :=
  Co.Rets.bind (huffRefill_rets t b) fun _ _ => .pure trivial

theorem refill4_rets (b : BitBuf) : (refill4 big b).Rets Any := by
  unfold refill4
  split
  · exact Co.Rets.bind coByte_rets fun _ _ => Co.Rets.bind coByte_rets fun _ _ => Co.Rets.bind coByte_rets fun _ _ =>
      Co.Rets.bind coByte_rets fun _ _ => .pure trivial
  · exact .pure trivial

theorem getBits_rets' (n : Nat) (b : BitBuf) : (getBits n b).Rets Any := (getBits_rets n b).mono fun _ _ => trivial

theorem rawByte_rets (b : BitBuf) : (rawByte b).Rets Any := by
  unfold rawByte
  split
  · exact getBits_rets' _ _
  · exact Co.Rets.bind coByte_rets fun _ _ => .pure trivial

theorem storedBits_rets (n : Nat) (b : BitBuf) : (storedBits n b).Rets Any := by
  induction n generalizing b with
  | zero => exact .pure trivial
  | succ n ih =>
    unfold storedBits
    split
    · exact Co.Rets.bind (getBits_rets' _ _) fun _ _ => Co.Rets.bind coWaitOut_rets fun _ _ =>
        Co.Rets.bind (coPut_rets _) fun _ _ => ih _
    · exact .pure trivial

theorem storedBytes_rets (n : Nat) : (storedBytes n).Rets Any := by
  induction n with
  | zero => exact .pure trivial
  | succ n ih =>
    exact Co.Rets.bind coWaitOut_rets fun _ _ => Co.Rets.bind coByte_rets fun _ _ =>
        Co.Rets.bind (coPut_rets _) fun _ _ => ih

theorem storedBlock_rets (b : BitBuf) : (storedBlock b).Rets Any := by
  refine Co.Rets.bind (rawByte_rets _) fun _ _ => Co.Rets.bind (rawByte_rets _) fun _ _ =>
    Co.Rets.bind (rawByte_rets _) fun _ _ => Co.Rets.bind (rawByte_rets _) fun _ _ => ?_
  dsimp only
  split
  · exact .stop
  · exact Co.Rets.bind (storedBits_rets _ _) fun _ _ => Co.Rets.bind (storedBytes_rets _) fun _ _ => .pure trivial

theorem readClLens_rets (is sizes : List Nat) (b : BitBuf) : (readClLens is sizes b).Rets Any := by
  induction is generalizing sizes b with
  | nil => exact .pure trivial
  | cons i is ih => exact Co.Rets.bind (getBits_rets' _ _) fun _ _ => ih _ _

theorem readLens_rets (t : HuffTable) (total f : Nat) (acc : List Nat) (b : BitBuf) :
    (readLens t total f acc b).Rets Any := by
  induction f generalizing acc b with
  | zero =>
    unfold readLens
    split
    · exact .stop
    · exact .pure trivial
  | succ f ih =>
    unfold readLens
    split
    · refine Co.Rets.bind (huffDecode_rets _ _) fun r _ => ?_
      dsimp only
      split
      · exact ih _ _
      · split
        · exact .stop
        · exact Co.Rets.bind (getBits_rets' _ _) fun _ _ => ih _ _
    · exact .pure trivial

theorem coTable_rets (sizes : List Nat) : (coTable sizes).Rets Any := by
  unfold coTable
  split
  · exact .stop
  · exact .pure trivial

theorem dynamicTables_rets (b : BitBuf) : (dynamicTables b).Rets Any := by
  refine Co.Rets.bind (getBits_rets' _ _) fun _ _ => Co.Rets.bind (getBits_rets' _ _) fun _ _ =>
    Co.Rets.bind (getBits_rets' _ _) fun _ _ => Co.Rets.bind (readClLens_rets _ _ _) fun _ _ =>
    Co.Rets.bind (coTable_rets _) fun _ _ => Co.Rets.bind (readLens_rets _ _ _ _ _) fun _ _ => ?_
  dsimp only
  split
  · exact .stop
  · exact Co.Rets.bind (coTable_rets _) fun _ _ => Co.Rets.bind (coTable_rets _) fun _ _ => .pure trivial

theorem getD_none {l : List Nat} {i : Nat} (h : l.length ≤ i) : l.getD i 0 = 0 := by
  rw [List.getD_eq_getElem?_getD, List.getElem?_eq_none h, Option.getD_none]

theorem length_tables (i : Nat) : sLengthExtra.getD i 0 = 0 ∧ sLengthBase.getD i 0 = 0 ∨ 3 ≤ sLengthBase.getD i 0 := by
  by_cases h : i < 31
  · revert i; decide
  · left
    rw [getD_none (by show 31 ≤ i; omega), getD_none (by show 31 ≤ i; omega)]
    exact ⟨rfl, rfl⟩

theorem dist_tables (i : Nat) : sDistBase.getD i 0 + 2 ^ sDistExtra.getD i 0 ≤ 32769 := by
  by_cases h : i < 32
  · revert i; decide
  · rw [getD_none (by show 32 ≤ i; omega), getD_none (by show 32 ≤ i; omega)]
    decide

theorem doMatch_sim (dist : HuffTable) (sym : Nat) (b : BitBuf) : MemSim Any (doMatchM dist sym b) (doMatch dist sym b) := by
  refine MemSim.bind (extraBits_rets _ _ b).sim fun r hr => ?_
  refine MemSim.bind (huffDecode_rets _ _).sim fun s _ => ?_
  refine MemSim.bind (extraBits_rets _ _ _).sim fun u hu => ?_
  have h1 := length_tables (sym - 257)
  have h2 := dist_tables s.1
  refine MemSim.copy (by omega) ?_ (.pure trivial)
  rcases h1 with ⟨h1, h1'⟩ | h1
  · left
    rw [h1, h1'] at hr
    omega
  · right
    omega

theorem symLoop_sim (lit dist : HuffTable) (f : Nat) (b : BitBuf) : MemSim Any (symLoopM big lit dist f b) (symLoop big lit dist f b) := by
  induction f generalizing b with
  | zero => exact .stop
  | succ f ih =>
    refine MemSim.bind coAvailIn_rets.sim fun nIn _ => MemSim.bind coAvailOut_rets.sim fun nOut _ => ?_
    split
    · refine MemSim.bind (huffDecode_rets _ _).sim fun r _ => ?_
      dsimp only
      split
      · split
        · exact .pure trivial
        · exact MemSim.bind (doMatch_sim _ _ _) fun _ _ => ih _
      · exact MemSim.bind coWaitOut_rets.sim fun _ _ => MemSim.bind (coPut_rets _).sim fun _ _ => ih _
    · refine MemSim.bind (refill4_rets _).sim fun b1 _ => ?_
      dsimp only
      split
      · split
        · exact .pure trivial
        · exact MemSim.bind (doMatch_sim _ _ _) fun _ _ => ih _
      · refine MemSim.bind (coPut_rets _).sim fun _ _ => ?_
        split
        · split
          · exact .pure trivial
          · exact MemSim.bind (doMatch_sim _ _ _) fun _ _ => ih _
        · exact MemSim.bind (coPut_rets _).sim fun _ _ => ih _

theorem inflateBlock_sim (fuel type : Nat) (b : BitBuf) : MemSim Any (inflateBlockM big fuel type b) (inflateBlock big fuel type b) := by
  unfold inflateBlockM inflateBlock
  split
  · exact (storedBlock_rets b).sim
  · split
    · exact .stop
    · split
      · exact MemSim.bind (coTable_rets _).sim fun _ _ => MemSim.bind (coTable_rets _).sim fun _ _ => symLoop_sim _ _ _ _
      · exact MemSim.bind (dynamicTables_rets _).sim fun _ _ => symLoop_sim _ _ _ _

theorem blockLoop_sim (fuel f : Nat) (b : BitBuf) : MemSim Any (blockLoopM big fuel f b) (blockLoop big fuel f b) := by
  induction f generalizing b with
  | zero => exact .stop
  | succ f ih =>
    refine MemSim.bind (getBits_rets' _ _).sim fun r _ => MemSim.bind (inflateBlock_sim _ _ _) fun b1 _ => ?_
    split
    · exact ih _
    · exact .pure trivial

theorem tinfl_sim (fuel : Nat) : MemSim Any (tinflM big fuel) (tinfl big fuel) := blockLoop_sim _ _ _

/-! ### One call -/

/-- The results of one call on both levels. -/
def ResRel (r : TStatus × TStateM) (s : TStatus × TState) : Prop :=
  r.1 = s.1 ∧ (r.1 ≠ .ub → MemSim Any r.2.co s.2.co ∧ r.2.inp = s.2.inp ∧ DictRel r.2.mem r.2.cur s.2.hist ∧
    s.2.room = 32768 - r.2.cur)

theorem slow_res {d n : Nat} {k : CoM Unit} {k' : Co Unit} (hd : d ≤ 32768) (hk : MemSim Any k k')
    (ih : ∀ inp m cur hist, DictRel m cur hist → ResRel (k.resume inp m cur) (k'.resume inp hist (32768 - cur)))
    {m : DictMem} {cur : Nat} {hist : Bytes} (h : DictRel m cur hist) (inp : Bytes) :
    ResRel (match DictMem.slow d n m cur with
      | none => (.ub, ⟨.stop .ub, inp, m, cur⟩)
      | some (0, m, cur) => k.resume inp m cur
      | some (n, m, cur) => (.hasMoreOutput, ⟨.copySlow d n k, inp, m, cur⟩))
      (((copyMatch d n).bind fun _ => k').resume inp hist (32768 - cur)) := by
  have hs := slow_sim h d hd n (fun _ => k') inp
  cases hsl : DictMem.slow d n m cur with
  | none =>
    rw [hsl] at hs
    exact ⟨hs.symm, fun hc => absurd rfl hc⟩
  | some r =>
    obtain ⟨n', m', cur'⟩ := r
    rw [hsl] at hs
    cases n' with
    | zero =>
      obtain ⟨hist', h', e⟩ := hs
      rw [e]
      exact ih inp m' cur' hist' h'
    | succ n' =>
      obtain ⟨hist', h', hc, e⟩ := hs
      rw [e]
      exact ⟨rfl, fun _ => ⟨.copySlow hd hk, rfl, h', by show 0 = 32768 - cur'; omega⟩⟩

theorem resume_sim {p : CoM Unit} {q : Co Unit} (hs : MemSim Any p q) (inp : Bytes) (m : DictMem) (cur : Nat) (hist : Bytes)
    (h : DictRel m cur hist) : ResRel (p.resume inp m cur) (q.resume inp hist (32768 - cur)) := by
  induction hs generalizing inp m cur hist with
  | pure ha => exact ⟨rfl, fun _ => ⟨.pure ha, rfl, h, rfl⟩⟩
  | @stop r =>
    cases r with
    | failed => exact ⟨rfl, fun _ => ⟨.stop, rfl, h, rfl⟩⟩
    | ub => exact ⟨rfl, fun hc => absurd rfl hc⟩
    | diverge => exact ⟨rfl, fun _ => ⟨.stop, rfl, h, rfl⟩⟩
  | getByte hk ih =>
    cases inp with
    | nil => exact ⟨rfl, fun _ => ⟨.getByte hk, rfl, h, rfl⟩⟩
    | cons c inp => exact ih c inp m cur hist h
  | availIn hk ih => exact ih _ inp m cur hist h
  | availOut hk ih => exact ih _ inp m cur hist h
  | @waitOut k k' hk ih =>
    have := h.le
    rw [CoM.resume]
    by_cases hc : cur ≥ 32768
    · rw [if_pos hc, show 32768 - cur = 0 by omega]
      exact ⟨rfl, fun _ => ⟨.waitOut hk, rfl, h, by show 0 = 32768 - cur; omega⟩⟩
    · rw [if_neg hc]
      obtain ⟨r, hr⟩ : ∃ r, 32768 - cur = r + 1 := ⟨32768 - cur - 1, by omega⟩
      have := ih inp m cur hist h
      rw [hr] at this ⊢
      exact this
  | @put c k k' hk ih =>
    have := h.le
    rw [CoM.resume]
    by_cases hc : cur ≥ 32768
    · rw [if_pos hc, show 32768 - cur = 0 by omega]
      exact ⟨rfl, fun hx => absurd rfl hx⟩
    · rw [if_neg hc]
      obtain ⟨r, hr⟩ : ∃ r, 32768 - cur = r + 1 := ⟨32768 - cur - 1, by omega⟩
      have := ih inp (m.set cur c) (cur + 1) (c :: hist) (h.put (by omega) c)
      rw [show 32768 - (cur + 1) = r by omega] at this
      rw [hr]
      exact this
  | @copy d n k k' hd hn hk ih =>
    rw [CoM.resume]
    by_cases hc : max cur (dictSrc cur d) + n > 32768
    · rw [if_pos hc]
      have hn0 : n ≠ 0 := by
        intro h0
        have := h.le
        have hlt : dictSrc cur d < 32768 := by rw [dictSrc_eq cur d h.le hd]; omega
        omega
      rw [putMatch, if_neg hn0]
      exact slow_res hd hk ih h inp
    · rw [if_neg hc]
      have hle := h.le
      -- the same as the byte-wise loop
      have fast : ∀ c, max cur (dictSrc cur d) + c ≤ 32768 →
          ResRel (match (DictMem.bytes c m cur (dictSrc cur d)).map (·, cur + c) with
            | none => (.ub, ⟨.stop .ub, inp, m, cur⟩)
            | some (m, cur) => k.resume inp m cur)
            (((copyMatch d c).bind fun _ => k').resume inp hist (32768 - cur)) := by
        intro c hb
        have hr := slow_res (n := c) hd hk ih h inp
        rw [DictMem.slow_eq_bytes d c m cur hd hb] at hr
        cases hbt : DictMem.bytes c m cur (dictSrc cur d) with
        | none => rw [hbt] at hr; exact hr
        | some m' => rw [hbt] at hr; exact hr
      by_cases h0 : n = 0
      · subst h0
        rw [DictMem.copyFast_zero]
        have e : ((putMatch 0 d).bind fun _ => k').resume inp hist (32768 - cur) =
            (((if 32768 - cur < 3 ∨ ((32768 - (32768 - cur) + 32768 - d) &&& 32767) + 3 > 32768 then Co.stop .ub
              else copyMatch d 3 : Co Unit)).bind fun _ => k').resume inp hist (32768 - cur) := rfl
        rw [e]
        have esrc : ((32768 - (32768 - cur) + 32768 - d) &&& 32767) = dictSrc cur d := by
          rw [dictSrc_eq cur d hle hd, show (32767 : Nat) = 2 ^ 15 - 1 from rfl, Nat.and_two_pow_sub_one_eq_mod]
          rw [show 32768 - (32768 - cur) = cur by omega]
        rw [esrc]
        by_cases hb : 32768 - cur < 3 ∨ dictSrc cur d + 3 > 32768
        · rw [if_pos hb]
          have : DictMem.bytes 3 m cur (dictSrc cur d) = none := by
            cases hx : DictMem.bytes 3 m cur (dictSrc cur d) with
            | none => rfl
            | some m' =>
              exfalso
              simp only [DictMem.bytes, DictMem.move1] at hx
              split at hx
              · simp at hx
              · split at hx
                · simp at hx
                · split at hx
                  · simp at hx
                  · rename_i h4
                    split at h4
                    · omega
                    · simp at h4
          rw [this]
          exact ⟨rfl, fun hx => absurd rfl hx⟩
        · rw [if_neg hb]
          exact fast 3 (by omega)
      · have h3 : 3 ≤ n := by omega
        rw [putMatch, if_neg h0, DictMem.copyFast_eq m cur _ d n h3 ?_]
        · exact fast n (by omega)
        · intro hnd
          rw [dictSrc_eq cur d hle hd]
          omega
  | @copySlow d n k k' hd hk ih =>
    rw [CoM.resume]
    exact slow_res hd hk ih h inp

/-! ### The callers -/

/-- The states of the stream on both levels. -/
structure StateRel (s : InflateStateM) (t : InflateState) : Prop where
  co : MemSim Any s.co t.co
  dict : DictRel s.mem (s.dictOfs + s.dictAvail) t.hist
  ofs : s.dictOfs = t.dictOfs
  avail : s.dictAvail = t.dictAvail
  avail_le : s.dictAvail ≤ t.hist.length
  status : s.lastStatus = t.lastStatus
  inp : s.inp = t.inp
  availOut : s.availOut = t.availOut
  out : s.out = t.out


theorem dictSlice_eq {m : DictMem} {ofs n : Nat} {hist : Bytes} {avail : Nat} (h : DictRel m (ofs + avail) hist)
    (ha : avail ≤ hist.length) (hn : n ≤ avail) : dictSlice m ofs n = (hist.take avail).reverse.take n := by
  have hle := h.le
  apply List.ext_getElem
  · simp [dictSlice, hn, ha]
  · intro i h1 h2
    simp only [dictSlice, List.length_map, List.length_range] at h1
    simp only [dictSlice, List.getElem_map, List.getElem_range, List.getElem_take, List.getElem_reverse, List.length_take]
    have hj := h.cell (avail - 1 - i) (by omega)
    have e : (ofs + avail + 32767 - (avail - 1 - i)) % 32768 = ofs + i := by omega
    rw [e] at hj
    rw [hj, List.getElem?_eq_getElem (by omega), Option.getD_some]
    congr 1
    omega

theorem StateRel.flush {s : InflateStateM} {t : InflateState} (h : StateRel s t) : StateRel s.flush t.flush := by
  have hle := h.dict.le
  have hcur : (s.dictOfs + min s.dictAvail s.availOut) &&& 32767 = (s.dictOfs + min s.dictAvail s.availOut) % 32768 := by
    rw [show (32767 : Nat) = 2 ^ 15 - 1 from rfl, Nat.and_two_pow_sub_one_eq_mod]
  constructor
  case co => exact h.co
  case dict =>
    show DictRel s.mem (((s.dictOfs + min s.dictAvail s.availOut) &&& 32767) + (s.dictAvail - min s.dictAvail s.availOut)) t.hist
    rw [hcur]
    refine ⟨by omega, fun j hj => ?_⟩
    rw [← h.dict.cell j hj]
    have e : ((s.dictOfs + min s.dictAvail s.availOut) % 32768 + (s.dictAvail - min s.dictAvail s.availOut) + 32767 - j) % 32768 =
        (s.dictOfs + s.dictAvail + 32767 - j) % 32768 := by omega
    rw [e]
  case ofs =>
    show (s.dictOfs + min s.dictAvail s.availOut) &&& 32767 = (t.dictOfs + min t.dictAvail t.availOut) &&& 32767
    rw [h.ofs, h.avail, h.availOut]
  case avail =>
    show s.dictAvail - min s.dictAvail s.availOut = t.dictAvail - min t.dictAvail t.availOut
    rw [h.avail, h.availOut]
  case avail_le =>
    show s.dictAvail - min s.dictAvail s.availOut ≤ t.hist.length
    have := h.avail_le
    omega
  case status => exact h.status
  case inp => exact h.inp
  case availOut =>
    show s.availOut - min s.dictAvail s.availOut = t.availOut - min t.dictAvail t.availOut
    rw [h.avail, h.availOut]
  case out =>
    show s.out ++ dictSlice s.mem s.dictOfs (min s.dictAvail s.availOut) =
      t.out ++ (t.hist.take t.dictAvail).reverse.take (min t.dictAvail t.availOut)
    rw [dictSlice_eq h.dict h.avail_le (Nat.min_le_left _ _), h.out, h.avail, h.availOut]

/-- What a call of `mz_inflate` returns, on both levels. -/
def MzRel (r : Except Err MzRet × InflateStateM) (s : Except Err MzRet × InflateState) : Prop :=
  r.1 = s.1 ∧ (r.1 ≠ .error .ub → StateRel r.2 s.2)


theorem resume_length (q : Co Unit) (inp hist : Bytes) (room : Nat) :
    (q.resume inp hist room).2.hist.length + (q.resume inp hist room).2.room = hist.length + room ∧
      hist.length ≤ (q.resume inp hist room).2.hist.length := by
  induction q generalizing inp hist room with
  | pure a => exact ⟨rfl, Nat.le_refl _⟩
  | stop r => cases r <;> exact ⟨rfl, Nat.le_refl _⟩
  | getByte k ih =>
    cases inp with
    | nil => exact ⟨rfl, Nat.le_refl _⟩
    | cons c inp => exact ih c inp hist room
  | availIn k ih => exact ih _ inp hist room
  | availOut k ih => exact ih _ inp hist room
  | waitOut k ih =>
    cases room with
    | zero => exact ⟨rfl, Nat.le_refl _⟩
    | succ room => exact ih inp hist _
  | put c k ih =>
    cases room with
    | zero => exact ⟨rfl, Nat.le_refl _⟩
    | succ room =>
      have := ih inp (c :: hist) room
      rw [List.length_cons] at this
      rw [Co.resume]
      omega
  | putBack d k ih =>
    cases room with
    | zero => exact ⟨rfl, Nat.le_refl _⟩
    | succ room =>
      rw [Co.resume]
      cases hist[(d + 32767) % 32768]? with
      | none => exact ⟨rfl, Nat.le_refl _⟩
      | some c =>
        have := ih inp (c :: hist) room
        rw [List.length_cons] at this
        simp only []
        omega

theorem mzLoop_sim (orig f : Nat) (s : InflateStateM) (t : InflateState) (h : StateRel s t) (h0 : s.dictAvail = 0) :
    MzRel (mzInflateLoopM orig f s) (mzInflateLoop orig f t) := by
  induction f generalizing s t with
  | zero => exact ⟨rfl, fun _ => h⟩
  | succ f ih =>
    have hdict := h.dict
    rw [h0, Nat.add_zero] at hdict
    have hr := resume_sim h.co s.inp s.mem s.dictOfs t.hist hdict
    have hlen := resume_length t.co s.inp t.hist (32768 - s.dictOfs)
    rw [mzInflateLoopM, mzInflateLoop, ← h.inp, ← h.ofs]
    generalize CoM.resume s.co s.inp s.mem s.dictOfs = r at hr ⊢
    generalize Co.resume t.co s.inp t.hist (32768 - s.dictOfs) = r' at hr hlen ⊢
    obtain ⟨st, r⟩ := r
    obtain ⟨st', r'⟩ := r'
    obtain ⟨e, hr⟩ := hr
    simp only at e hr hlen
    subst e
    have hofs := hdict.le
    by_cases hub : st = .ub
    · subst hub
      exact ⟨rfl, fun hc => absurd rfl hc⟩
    · obtain ⟨hco, hinp, hd, hroom⟩ := hr hub
      have hle := hd.le
      have rel : StateRel { s with co := r.co, inp := r.inp, mem := r.mem, lastStatus := st, dictAvail := r.cur - s.dictOfs }
          { t with co := r'.co, inp := r'.inp, hist := r'.hist, lastStatus := st, dictAvail := 32768 - s.dictOfs - r'.room } := by
        constructor
        case co => exact hco
        case dict =>
          show DictRel r.mem (s.dictOfs + (r.cur - s.dictOfs)) r'.hist
          rw [show s.dictOfs + (r.cur - s.dictOfs) = r.cur by omega]
          exact hd
        case ofs => exact h.ofs
        case avail => show r.cur - s.dictOfs = 32768 - s.dictOfs - r'.room; omega
        case avail_le => show r.cur - s.dictOfs ≤ r'.hist.length; omega
        case status => rfl
        case inp => exact hinp
        case availOut => exact h.availOut
        case out => exact h.out
      rw [← h.ofs] at rel
      replace rel := rel.flush
      dsimp only
      generalize InflateStateM.flush _ = s1 at rel ⊢
      generalize InflateState.flush _ = t1 at rel ⊢
      have rest : MzRel
          (if st = .needsMoreInput ∧ orig = 0 then (.ok .bufError, s1)
            else if st = .done ∨ s1.inp = [] ∨ s1.availOut = 0 ∨ s1.dictAvail ≠ 0 then
              (.ok (if st = .done ∧ s1.dictAvail = 0 then .streamEnd else .ok), s1)
            else mzInflateLoopM orig f s1)
          (if st = .needsMoreInput ∧ orig = 0 then (.ok .bufError, t1)
            else if st = .done ∨ t1.inp = [] ∨ t1.availOut = 0 ∨ t1.dictAvail ≠ 0 then
              (.ok (if st = .done ∧ t1.dictAvail = 0 then .streamEnd else .ok), t1)
            else mzInflateLoop orig f t1) := by
        rw [← rel.inp, ← rel.availOut, ← rel.avail]
        split
        · exact ⟨rfl, fun _ => rel⟩
        · split
          · exact ⟨rfl, fun _ => rel⟩
          · rename_i hn
            exact ih s1 t1 rel (by
              by_contra hc
              exact hn (.inr (.inr (.inr hc))))
      cases st with
      | ub => exact absurd rfl hub
      | diverge => exact ⟨rfl, fun _ => rel⟩
      | failed => exact ⟨rfl, fun _ => rel⟩
      | done => exact rest
      | needsMoreInput => exact rest
      | hasMoreOutput => exact rest

theorem mzInflate_sim (fuel : Nat) (s : InflateStateM) (t : InflateState) (h : StateRel s t) :
    MzRel (mzInflateM fuel s) (mzInflate fuel t) := by
  unfold mzInflateM mzInflate
  rw [← h.status]
  by_cases hf : s.lastStatus = .failed
  · rw [if_pos hf, if_pos hf]
    exact ⟨rfl, fun _ => h⟩
  · rw [if_neg hf, if_neg hf, ← h.avail]
    by_cases ha : s.dictAvail ≠ 0
    · rw [if_pos ha, if_pos ha]
      have := h.flush
      refine ⟨?_, fun _ => this⟩
      dsimp only
      rw [this.status, this.avail]
    · rw [if_neg ha, if_neg ha, ← h.inp]
      exact mzLoop_sim _ _ _ _ h (by omega)

theorem npyInner_sim (fuel f : Nat) (s : InflateStateM) (t : InflateState) (out : Bytes) (h : StateRel s t) :
    match npyInflateInnerM fuel f s out, npyInflateInner fuel f t out with
    | .error e, .error e' => e = e'
    | .ok (r, s', o), .ok (r', t', o') => r = r' ∧ o = o' ∧ StateRel s' t'
    | _, _ => False := by
  induction f generalizing s t out with
  | zero => exact rfl
  | succ f ih =>
    have hrel : StateRel { s with availOut := CHUNK, out := [] } { t with availOut := CHUNK, out := [] } :=
      ⟨h.co, h.dict, h.ofs, h.avail, h.avail_le, h.status, h.inp, rfl, rfl⟩
    have hm := mzInflate_sim fuel _ _ hrel
    rw [npyInflateInnerM, npyInflateInner]
    generalize mzInflateM fuel _ = a at hm ⊢
    generalize mzInflate fuel _ = b at hm ⊢
    obtain ⟨ra, sa⟩ := a
    obtain ⟨rb, sb⟩ := b
    obtain ⟨e, hm⟩ := hm
    simp only at e hm
    subst e
    cases ra with
    | error e => exact rfl
    | ok ret =>
      have hs := hm (by simp)
      have go : match (if sa.availOut = 0 then npyInflateInnerM fuel f sa (out ++ sa.out) else .ok (ret, sa, out ++ sa.out)),
          (if sb.availOut = 0 then npyInflateInner fuel f sb (out ++ sb.out) else .ok (ret, sb, out ++ sb.out)) with
          | .error e, .error e' => e = e'
          | .ok (r, s', o), .ok (r', t', o') => r = r' ∧ o = o' ∧ StateRel s' t'
          | _, _ => False := by
        rw [← hs.availOut, ← hs.out]
        by_cases h0 : sa.availOut = 0
        · rw [if_pos h0, if_pos h0]
          exact ih sa sb _ hs
        · rw [if_neg h0, if_neg h0]
          exact ⟨rfl, rfl, hs⟩
      cases ret with
      | dataError => exact rfl
      | ok => exact go
      | streamEnd => exact go
      | bufError => exact go

theorem npyOuter_sim (fuel f : Nat) (s : InflateStateM) (t : InflateState) (input : IStream) (out : Bytes) (h : StateRel s t) :
    npyInflateOuterM fuel f s input out = npyInflateOuter fuel f t input out := by
  induction f generalizing s t input out with
  | zero => rfl
  | succ f ih =>
    rw [npyInflateOuterM, npyInflateOuter]
    rcases hrd : IStream.read CHUNK input with ⟨r, input'⟩
    cases r with
    | error e => rfl
    | ok chunk =>
      simp only []
      split
      · rfl
      · split
        · rfl
        · have hrel : StateRel { s with inp := chunk } { t with inp := chunk } :=
            ⟨h.co, h.dict, h.ofs, h.avail, h.avail_le, h.status, rfl, h.availOut, h.out⟩
          have hi := npyInner_sim fuel fuel _ _ out hrel
          generalize npyInflateInnerM fuel fuel _ out = a at hi ⊢
          generalize npyInflateInner fuel fuel _ out = b at hi ⊢
          cases a with
          | error e =>
            cases b with
            | error e' => exact congrArg _ hi
            | ok b => exact hi.elim
          | ok a =>
            cases b with
            | error e' => exact hi.elim
            | ok b =>
              obtain ⟨ra, sa, oa⟩ := a
              obtain ⟨rb, sb, ob⟩ := b
              obtain ⟨rfl, rfl, hs⟩ := hi
              simp only []
              split
              · rfl
              · exact ih sa sb _ _ hs

/-- Decompression over the memory of the code, with its three ways of copying a match, is decompression as modelled in
`Model/Inflate`: the same result for every input. -/
theorem npyInflateM_eq (fuel : Nat) (bytes : Bytes) : npyInflateM big fuel bytes = npyInflate big fuel bytes := by
  unfold npyInflateM npyInflate
  apply npyOuter_sim
  exact ⟨tinfl_sim fuel, ⟨by show 0 ≤ 32768; omega, fun j _ => rfl⟩, rfl, rfl, Nat.le_refl _, rfl, rfl, rfl, rfl⟩

end Npy
