import Verif.Proofs.DeflTable
/-!
# The run length code of the code sizes in dynamic blocks
-/

namespace Npy
open Spec.Deflate

/-- The bytes that stand for a symbol of the code length alphabet in `packed_code_sizes`. -/
def Spec.Deflate.ClOp.packed : ClOp → List Nat
  | .len l => [l]
  | .rep e => [16, e]
  | .zeros e => [17, e]
  | .manyZeros e => [18, e]

/-- The numbers are in range. -/
def Spec.Deflate.ClOp.Rng : ClOp → Prop
  | .len l => l ≤ 15
  | .rep e => e < 4
  | .zeros e => e < 8
  | .manyZeros e => e < 128

theorem expandCl_append (acc : List Nat) (a b : List ClOp) :
    expandCl acc (a ++ b) = (expandCl acc a).bind fun acc => expandCl acc b := by
  induction a generalizing acc with
  | nil => rfl
  | cons o os ih =>
    cases o with
    | len l => simp only [List.cons_append, expandCl, ih]
    | rep e =>
      simp only [List.cons_append, expandCl]
      cases acc.getLast? with
      | none => rfl
      | some l => simp only [ih]
    | zeros e => simp only [List.cons_append, expandCl, ih]
    | manyZeros e => simp only [List.cons_append, expandCl, ih]

theorem expandCl_lens (acc : List Nat) (l k : Nat) :
    expandCl acc (List.replicate k (.len l)) = some (acc ++ List.replicate k l) := by
  induction k generalizing acc with
  | zero => simp [expandCl]
  | succ k ih => rw [List.replicate_succ, expandCl, ih, List.append_assoc]; rfl

/-- The packed form is not longer than what it stands for. -/
theorem packed_length (ops : List ClOp) (acc r : List Nat) (h : expandCl acc ops = some r) :
    acc.length + (ops.flatMap ClOp.packed).length ≤ r.length := by
  induction ops generalizing acc with
  | nil =>
    simp only [expandCl, Option.some.injEq] at h
    subst h
    simp
  | cons o os ih =>
    rw [List.flatMap_cons, List.length_append]
    cases o with
    | len l =>
      have := ih _ h
      simp [ClOp.packed] at this ⊢
      omega
    | rep e =>
      simp only [expandCl] at h
      cases hl : acc.getLast? with
      | none => rw [hl] at h; simp at h
      | some l =>
        rw [hl] at h
        have := ih _ h
        simp [ClOp.packed] at this ⊢
        omega
    | zeros e =>
      have := ih _ h
      simp [ClOp.packed] at this ⊢
      omega
    | manyZeros e =>
      have := ih _ h
      simp [ClOp.packed] at this ⊢
      omega

structure RleInv (st : Rle) (done : List Nat) (ops : List ClOp) (e : List Nat) : Prop where
  packed : st.packed = ops.flatMap ClOp.packed
  exp : expandCl [] ops = some e
  split : done = e ++ List.replicate st.z 0 ++ List.replicate st.r st.prev
  zr : st.z = 0 ∨ st.r = 0
  z138 : st.z ≤ 138
  r6 : st.r ≤ 6
  rlast : st.r ≠ 0 → e.getLast? = some st.prev
  prev15 : st.r ≠ 0 → st.prev ≤ 15
  rng : ∀ o ∈ ops, o.Rng
  cnt : ∀ s, st.cnt s = ops.countP fun o => o.sym = s
  len : ops.length ≤ e.length
  small : done.length < 60000

variable {st : Rle} {done e : List Nat} {ops : List ClOp}

theorem RleInv.emit (h : RleInv st done ops e) {s k : Nat} (hs : s ≤ 15) (h' : ops.length + k ≤ 60000)
    {z r prev : Nat} (hsplit : done = e ++ List.replicate k s ++ List.replicate z 0 ++ List.replicate r prev)
    (hzr : z = 0 ∨ r = 0) (hz : z ≤ 138) (hr : r = 0) :
    RleInv { st.emit s k with z := z, r := r, prev := prev } done (ops ++ List.replicate k (.len s))
      (e ++ List.replicate k s) := by
  refine ⟨?_, ?_, hsplit, hzr, hz, by simp only; omega, by simp only; omega, by simp only; omega, ?_, ?_, ?_, h.small⟩
  · simp only [Rle.emit, h.packed, List.flatMap_append]
    congr 1
    clear h' hsplit
    induction k with
    | zero => rfl
    | succ k ih => rw [List.replicate_succ, List.replicate_succ, List.flatMap_cons, ← ih]; rfl
  · rw [expandCl_append, h.exp]
    exact expandCl_lens _ _ _
  · intro o ho
    rcases List.mem_append.1 ho with ho | ho
    · exact h.rng o ho
    · rw [List.eq_of_mem_replicate ho]
      exact hs
  · intro t
    have hle : ops.countP (fun o => o.sym = t) ≤ ops.length := List.countP_le_length
    simp only [Rle.emit, List.countP_append, List.countP_replicate]
    by_cases e' : t = s
    · subst e'
      rw [setAt_self, h.cnt, Nat.mod_eq_of_lt (by omega)]
      simp [ClOp.sym]
    · rw [setAt_ne _ _ e', h.cnt]
      simp [ClOp.sym, Ne.symm e']
  · simp only [List.length_append, List.length_replicate]
    have := h.len
    omega

theorem RleInv.extra (h : RleInv st done ops e) (o : ClOp) (s x : Nat) (ho : o.packed = [s, x]) (hsym : o.sym = s)
    (hrng : o.Rng) {l k : Nat} (hexp : expandCl e [o] = some (e ++ List.replicate k l)) (hk : 1 ≤ k)
    {z r prev : Nat} (hsplit : done = e ++ List.replicate k l) (hz : z = 0) (hr : r = 0) :
    RleInv { st.emitExtra s x with z := z, r := r, prev := prev } done (ops ++ [o]) (e ++ List.replicate k l) := by
  have hsm := h.small
  have hd : done.length = e.length + k := by rw [hsplit]; simp
  have hl := h.len
  refine ⟨?_, ?_, by subst hz hr; simpa using hsplit, .inl hz, by simp only; omega, by simp only; omega, by simp only; omega,
    by simp only; omega, ?_, ?_, ?_, h.small⟩
  · simp only [Rle.emitExtra, h.packed, List.flatMap_append, List.flatMap_cons, List.flatMap_nil, ho, List.append_nil]
  · rw [expandCl_append, h.exp]
    exact hexp
  · intro o' ho'
    rcases List.mem_append.1 ho' with ho' | ho'
    · exact h.rng o' ho'
    · rw [List.mem_singleton.1 ho']
      exact hrng
  · intro t
    have hle : ops.countP (fun o => o.sym = t) ≤ ops.length := List.countP_le_length
    simp only [Rle.emitExtra, List.countP_append, List.countP_singleton]
    by_cases e' : t = s
    · subst e'
      rw [setAt_self, h.cnt, Nat.mod_eq_of_lt (by omega)]
      simp [hsym]
    · rw [setAt_ne _ _ e', h.cnt]
      simp [hsym, Ne.symm e']
  · simp only [List.length_append, List.length_replicate, List.length_cons, List.length_nil]
    omega

theorem RleInv.flushPrev (h : RleInv st done ops e) :
    ∃ ops', RleInv st.flushPrev done ops' (e ++ List.replicate st.r st.prev) ∧ st.flushPrev.r = 0 ∧
      st.flushPrev.z = st.z ∧ st.flushPrev.prev = st.prev := by
  have hsm := h.small
  have hl := h.len
  have hd : done.length = e.length + st.z + st.r := by rw [h.split]; simp; omega
  unfold Rle.flushPrev
  split
  · rename_i h0
    exact ⟨ops, by rw [h0]; simpa using h, h0, rfl, rfl⟩
  · rename_i h0
    have hz : st.z = 0 := h.zr.resolve_right h0
    have hsp := h.split
    rw [hz] at hsp
    simp only [List.replicate_zero, List.append_nil] at hsp
    split
    · refine ⟨_, h.emit (s := st.prev) (k := st.r) (h.prev15 h0) (by omega) (z := (st.emit st.prev st.r).z) (r := 0)
        (prev := (st.emit st.prev st.r).prev) ?_ (.inr rfl) ?_ rfl, rfl, rfl, rfl⟩
      · simp only [Rle.emit, hz]; simpa using hsp
      · exact h.z138
    · have hr6 := h.r6
      refine ⟨_, h.extra (.rep (st.r - 3)) 16 (st.r - 3) rfl rfl (by simp only [ClOp.Rng]; omega) (l := st.prev) (k := st.r) ?_
        (by omega) (z := (st.emitExtra 16 (st.r - 3)).z) (r := 0) (prev := (st.emitExtra 16 (st.r - 3)).prev) hsp hz rfl,
        rfl, rfl, rfl⟩
      simp only [expandCl, h.rlast h0, show 3 + (st.r - 3) = st.r by omega]

theorem RleInv.flushZero (h : RleInv st done ops e) :
    ∃ ops', RleInv st.flushZero done ops' (e ++ List.replicate st.z 0) ∧ st.flushZero.z = 0 ∧
      st.flushZero.r = st.r ∧ st.flushZero.prev = st.prev := by
  have hsm := h.small
  have hl := h.len
  have hd : done.length = e.length + st.z + st.r := by rw [h.split]; simp; omega
  unfold Rle.flushZero
  split
  · rename_i h0
    exact ⟨ops, by rw [h0]; simpa using h, h0, rfl, rfl⟩
  · rename_i h0
    have hr : st.r = 0 := h.zr.resolve_left h0
    have hsp := h.split
    rw [hr] at hsp
    simp only [List.replicate_zero, List.append_nil] at hsp
    have hz := h.z138
    split
    · refine ⟨_, h.emit (s := 0) (k := st.z) (by omega) (by omega) (z := 0) (r := (st.emit 0 st.z).r)
        (prev := (st.emit 0 st.z).prev) ?_ (.inl rfl) (by omega) hr, rfl, rfl, rfl⟩
      simp only [Rle.emit, hr]; simpa using hsp
    · split
      · refine ⟨_, h.extra (.zeros (st.z - 3)) 17 (st.z - 3) rfl rfl (by simp only [ClOp.Rng]; omega) (l := 0) (k := st.z) ?_
          (by omega) (z := 0) (r := (st.emitExtra 17 (st.z - 3)).r) (prev := (st.emitExtra 17 (st.z - 3)).prev) hsp rfl hr,
          rfl, rfl, rfl⟩
        simp only [expandCl, show 3 + (st.z - 3) = st.z by omega]
      · refine ⟨_, h.extra (.manyZeros (st.z - 11)) 18 (st.z - 11) rfl rfl (by simp only [ClOp.Rng]; omega) (l := 0) (k := st.z)
          ?_ (by omega) (z := 0) (r := (st.emitExtra 18 (st.z - 11)).r) (prev := (st.emitExtra 18 (st.z - 11)).prev) hsp rfl hr,
          rfl, rfl, rfl⟩
        simp only [expandCl, show 11 + (st.z - 11) = st.z by omega]

/-- Between two sizes. -/
structure RleOk (st : Rle) (done : List Nat) : Prop where
  inv : ∃ ops e, RleInv st done ops e ∧ (st.prev ≠ 0 → st.prev ≤ 15 → st.z = 0 ∧ e.getLast? = some st.prev)
  z : st.z < 138
  r : st.r < 6
  zprev : st.prev = 0 → st.r = 0
  prev : st.prev ≤ 15 ∨ (st.prev = 255 ∧ done = [] ∧ st.r = 0)

theorem RleOk.step (h : RleOk st done) {size : Nat} (hs : size ≤ 15) (hd : done.length + 1 < 60000) :
    RleOk (st.step size) (done ++ [size]) := by
  obtain ⟨⟨ops, e, hi, hp⟩, hz, hr, hzp, hpr⟩ := h
  unfold Rle.step
  by_cases h0 : size = 0
  · subst h0
    rw [if_pos rfl]
    obtain ⟨ops1, f1, f2, f3, f4⟩ := hi.flushPrev
    unfold Rle.zero
    simp only
    generalize st.flushPrev = st1 at *
    have g : RleInv { st1 with z := st1.z + 1 } (done ++ [0]) ops1 (e ++ List.replicate st.r st.prev) := by
      refine ⟨f1.packed, f1.exp, ?_, .inr f2, by simp only; omega, f1.r6, fun hc => absurd f2 hc, fun hc => absurd f2 hc,
        f1.rng, f1.cnt, f1.len, by simpa using hd⟩
      simp only
      conv_lhs => rw [f1.split]
      rw [f2]
      simp only [List.replicate_zero, List.append_nil, List.append_assoc, List.replicate_succ' (n := st1.z)]
    split
    · rename_i h138
      obtain ⟨ops2, k1, k2, k3, k4⟩ := g.flushZero
      generalize (Rle.flushZero { st1 with z := st1.z + 1 }) = st2 at *
      simp only at k3
      rw [f2] at k3
      have hr0 : RleInv { st2 with prev := 0 } (done ++ [0]) ops2 _ := 
        ⟨k1.packed, k1.exp, by simpa [k3] using k1.split, .inl k2, k1.z138, k1.r6, fun hc => absurd k3 hc,
          fun hc => absurd k3 hc, k1.rng, k1.cnt, k1.len, k1.small⟩
      exact ⟨⟨_, _, hr0, fun hc => absurd rfl hc⟩, by simp only; omega, by simp only; omega, fun _ => k3, .inl (by simp)⟩
    · rename_i h138
      have hr0 : RleInv { st1 with z := st1.z + 1, prev := 0 } (done ++ [0]) ops1 _ := 
        ⟨g.packed, g.exp, by have := g.split; simp only [f2] at this ⊢; simpa using this, .inr f2, g.z138, g.r6,
          fun hc => absurd f2 hc, fun hc => absurd f2 hc, g.rng, g.cnt, g.len, g.small⟩
      exact ⟨⟨_, _, hr0, fun hc => absurd rfl hc⟩, by simp only; omega, by simp only; omega, fun _ => f2, .inl (by simp)⟩
  · rw [if_neg h0]
    obtain ⟨ops1, f1, f2, f3, f4⟩ := hi.flushZero
    unfold Rle.nonzero
    simp only
    have hpz : st.prev ≠ 0 → st.prev ≤ 15 → (e ++ List.replicate st.z 0).getLast? = some st.prev := fun h1 h2 => by
      obtain ⟨h3, h4⟩ := hp h1 h2
      rw [h3]
      simpa using h4
    generalize st.flushZero = st1 at *
    by_cases hne : size ≠ st1.prev
    · rw [if_pos hne]
      obtain ⟨ops2, k1, k2, k3, k4⟩ := f1.flushPrev
      generalize st1.flushPrev = st2 at *
      have hlen := k1.len
      have hdl : done.length = (e ++ List.replicate st.z 0 ++ List.replicate st1.r st1.prev).length := by
        conv_lhs => rw [k1.split]
        simp [k2, k3, f2]
      have hr0 : RleInv { st2.emit size 1 with prev := size } (done ++ [size]) (ops2 ++ List.replicate 1 (.len size))
          (e ++ List.replicate st.z 0 ++ List.replicate st1.r st1.prev ++ List.replicate 1 size) := by
        refine ⟨?_, ?_, ?_, .inr k2, ?_, ?_, fun hc => absurd k2 hc, fun hc => absurd k2 hc, ?_, ?_, ?_, by simpa using hd⟩
        · simp only [Rle.emit, k1.packed, List.flatMap_append]; rfl
        · rw [expandCl_append, k1.exp]; exact expandCl_lens _ _ _
        · have hz2 : (st2.emit size 1).z = 0 := by simp only [Rle.emit]; omega
          have hr2 : (st2.emit size 1).r = 0 := k2
          simp only [hz2, hr2]
          have hsp := k1.split
          rw [k2, k3, f2] at hsp
          conv_lhs => rw [hsp]
          simp
        · simp only [Rle.emit]; omega
        · simp only [Rle.emit]; omega
        · intro o ho
          rcases List.mem_append.1 ho with ho | ho
          · exact k1.rng o ho
          · rw [List.eq_of_mem_replicate ho]
            exact hs
        · intro t
          have hle : ops2.countP (fun o => o.sym = t) ≤ ops2.length := List.countP_le_length
          simp only [Rle.emit, List.countP_append, List.countP_replicate]
          by_cases e' : t = size
          · subst e'
            rw [setAt_self, k1.cnt, Nat.mod_eq_of_lt (by omega)]
            simp [ClOp.sym]
          · rw [setAt_ne _ _ e', k1.cnt]
            simp [ClOp.sym, Ne.symm e']
        · simp only [List.length_append, List.length_replicate] at hlen ⊢
          omega
      refine ⟨⟨_, _, hr0, fun _ _ => ⟨?_, by simp⟩⟩, ?_, ?_, fun _ => k2, .inl hs⟩
      · simp only [Rle.emit]; omega
      · simp only [Rle.emit]; omega
      · simp only [Rle.emit]; omega
    · have heq : size = st1.prev := by omega
      have hpe : st.prev = size := by omega
      have h15 : st.prev ≤ 15 := by omega
      obtain ⟨hz0, -⟩ := hp (by omega) h15
      have hl2 := hpz (by omega) h15
      rw [if_neg hne]
      have g : RleInv { st1 with r := st1.r + 1 } (done ++ [size]) ops1 (e ++ List.replicate st.z 0) := by
        refine ⟨f1.packed, f1.exp, ?_, .inl f2, f1.z138, by simp only; omega, fun _ => by rw [hl2, f4], fun _ => by
          simp only; omega, f1.rng, f1.cnt, f1.len, by simpa using hd⟩
        have hsp := f1.split
        simp only
        conv_lhs => rw [hsp]
        rw [List.replicate_succ' (n := st1.r), heq]
        simp
      split
      · rename_i h6
        obtain ⟨ops2, k1, k2, k3, k4⟩ := g.flushPrev
        generalize (Rle.flushPrev { st1 with r := st1.r + 1 }) = st2 at *
        simp only at k3 k4
        have hpp : st2.prev = size := by omega
        have hr0 : RleInv { st2 with prev := size } (done ++ [size]) ops2
            (e ++ List.replicate st.z 0 ++ List.replicate (st1.r + 1) st1.prev) := by
          have : ({ st2 with prev := size } : Rle) = st2 := by rw [← hpp]
          rw [this]
          exact k1
        refine ⟨⟨_, _, hr0, fun _ _ => ⟨by simp only; omega, ?_⟩⟩, by simp only; omega, by simp only; omega, fun _ => k2, .inl hs⟩
        rw [List.replicate_succ' (n := st1.r), ← heq]
        simp
      · rename_i h6
        have hr0 : RleInv { st1 with r := st1.r + 1, prev := size } (done ++ [size]) ops1 (e ++ List.replicate st.z 0) := by
          rw [heq] at g ⊢
          exact g
        refine ⟨⟨_, _, hr0, fun _ _ => ⟨f2, ?_⟩⟩, by simp only; omega, by simp only; omega, fun hc => absurd hc h0, .inl hs⟩
        rw [hl2, hpe]

/-- The packed code sizes stand for the code sizes. -/
theorem rlePack_ok (sizes : List Nat) (hs : ∀ l ∈ sizes, l ≤ 15) (hlen : sizes.length < 50000) :
    ∃ ops, (rlePack sizes).packed = ops.flatMap ClOp.packed ∧ expandCl [] ops = some sizes ∧ (∀ o ∈ ops, o.Rng) ∧
      (∀ s, (rlePack sizes).cnt s = ops.countP fun o => o.sym = s) ∧ ops.length ≤ sizes.length := by
  have hfold : ∀ (l done : List Nat) (st : Rle), RleOk st done → (∀ x ∈ l, x ≤ 15) → done.length + l.length < 60000 →
      RleOk (l.foldl Rle.step st) (done ++ l) := by
    intro l
    induction l with
    | nil => intro done st h _ _; simpa using h
    | cons x xs ih =>
      intro done st h hx hl
      have := ih (done ++ [x]) (st.step x) (h.step (hx x (by simp)) (by simp at hl; omega)) (fun y hy => hx y (by simp [hy]))
        (by simp at hl ⊢; omega)
      simpa using this
  have h0 : RleOk { packed := [], cnt := fun _ => 0, z := 0, r := 0, prev := 255 } [] :=
    ⟨⟨[], [], ⟨rfl, rfl, rfl, .inl rfl, by simp, by simp, by simp, by simp, by simp, by simp, by simp, by simp⟩, by simp⟩,
      by simp, by simp, by simp, .inr ⟨rfl, rfl, rfl⟩⟩
  have hf := hfold sizes [] _ h0 hs (by simp; omega)
  rw [List.nil_append] at hf
  unfold rlePack
  simp only
  generalize sizes.foldl Rle.step { packed := [], cnt := fun _ => 0, z := 0, r := 0, prev := 255 } = st at *
  obtain ⟨⟨ops, e, hi, -⟩, hz, hr, -, -⟩ := hf
  have fin : ∀ st' ops' e', RleInv st' sizes ops' e' → st'.z = 0 → st'.r = 0 →
      ∃ ops, st'.packed = ops.flatMap ClOp.packed ∧ expandCl [] ops = some sizes ∧ (∀ o ∈ ops, o.Rng) ∧
        (∀ s, st'.cnt s = ops.countP fun o => o.sym = s) ∧ ops.length ≤ sizes.length := by
    intro st' ops' e' h z0 r0
    have e1 : sizes = e' := by
      conv_lhs => rw [h.split]
      rw [z0, r0]
      simp
    exact ⟨ops', h.packed, by rw [h.exp, ← e1], h.rng, h.cnt, by have := h.len; rwa [← e1] at this⟩
  split
  · rename_i h1
    obtain ⟨ops', k1, k2, k3, k4⟩ := hi.flushPrev
    exact fin _ _ _ k1 (by rw [k3]; exact hi.zr.resolve_right h1) k2
  · rename_i h1
    obtain ⟨ops', k1, k2, k3, k4⟩ := hi.flushZero
    exact fin _ _ _ k1 k2 (by rw [k3]; omega)

end Npy
