import Verif.Model.TensorMem
import Verif.Props.Tensor
/-!
# C84: tensors when memory runs out
-/

namespace Npy
open Spec

variable {α : Type}

/-! ### Vectors -/

theorem copyElems_done {β : Type} (owns : Bool) (m : Memory) (src : List β) :
    ∃ k, k ≤ src.length ∧ (copyElems owns m src).done = src.take k ∧ ((copyElems owns m src).ok = true → k = src.length) ∧
      ((copyElems owns m src).ok = false → k < src.length ∧ owns = true) := by
  induction src generalizing m with
  | nil => exact ⟨0, by simp [copyElems]⟩
  | cons v vs ih =>
    rw [copyElems]
    split
    · rename_i ho
      split
      · exact ⟨0, by simp [ho]⟩
      · obtain ⟨k, h1, h2, h3, h4⟩ := ih m.tail
        refine ⟨k + 1, by simpa using h1, ?_, fun h => ?_, fun h => ?_⟩
        · simp [h2]
        · rw [h3 h]; rfl
        · exact ⟨by have := (h4 h).1; simpa using this, ho⟩
    · obtain ⟨k, h1, h2, h3, h4⟩ := ih m
      refine ⟨k + 1, by simpa using h1, ?_, fun h => ?_, fun h => ?_⟩
      · simp [h2]
      · rw [h3 h]; rfl
      · exact ⟨by have := (h4 h).1; simpa using this, (h4 h).2⟩

theorem copyElems_fixed {β : Type} (m : Memory) (src : List β) : copyElems false m src = ⟨true, src, m⟩ := by
  induction src generalizing m with
  | nil => rfl
  | cons v vs ih => rw [copyElems, if_neg (by simp)]; simp only [ih]

theorem vecAssign_ok {β : Type} {owns : Bool} {m : Memory} {dst src : List β} {cap : Nat}
    (h : (vecAssign owns m dst cap src).ok = true) : (vecAssign owns m dst cap src).elems = src := by
  unfold vecAssign at h ⊢
  simp only [] at h ⊢
  split
  · rename_i h1
    rw [if_pos h1] at h
    split
    · rename_i h2; rw [if_pos h2] at h; simp at h
    · rename_i h2
      rw [if_neg h2] at h
      split
      · rfl
      · rename_i h3; rw [if_neg h3] at h; simp at h
  · rename_i h1
    rw [if_neg h1] at h
    split
    · rfl
    · rename_i h3; rw [if_neg h3] at h; simp at h

theorem vecAssign_room {β : Type} {owns : Bool} {m : Memory} {dst src : List β} {cap : Nat} (hd : dst.length ≤ cap) :
    (vecAssign owns m dst cap src).elems.length ≤ (vecAssign owns m dst cap src).cap := by
  unfold vecAssign
  simp only []
  repeat' split
  · exact hd
  · exact Nat.le_refl _
  · exact hd
  · show src.length ≤ cap; omega
  · show (List.take _ _ ++ List.drop _ _).length ≤ cap
    simp only [List.length_append, List.length_take, List.length_drop]
    omega

theorem vecAssign_fixed {β : Type} {m : Memory} {dst src : List β} {cap : Nat} :
    vecAssign false m dst cap src = if cap < src.length then
      (if m.headD false then ⟨false, dst, cap, m.tail⟩ else ⟨true, src, src.length, m.tail⟩) else ⟨true, src, cap, m⟩ := by
  unfold vecAssign
  simp only [copyElems_fixed, if_true]

theorem vecAssign_fails {β : Type} {m : Memory} {dst src : List β} {cap : Nat}
    (h : (vecAssign false m dst cap src).ok = false) : (vecAssign false m dst cap src).elems = dst ∧ cap < src.length := by
  rw [vecAssign_fixed] at h ⊢
  split
  · rename_i h1
    rw [if_pos h1] at h
    split
    · exact ⟨rfl, h1⟩
    · rename_i h2; rw [if_neg h2] at h; simp at h
  · rename_i h1; rw [if_neg h1] at h; simp at h

theorem ownsMemory_false {ops : ElemOps α} (h : ops.dtype ≠ .unicode) : ownsMemory ops = false := by
  simpa [ownsMemory] using h

/-! ### Calls that do not fail -/

theorem MEnv.tensors_put (env : MEnv α) (v : Nat) (a : Obj α) : (env.put v a).tensors = env.tensors.put v a.t := by
  funext w
  simp only [MEnv.tensors, MEnv.put, TEnv.put]
  split <;> rfl

/-- What a call does without shortage, in terms of `Model/History`. -/
def SameAs (r : MStep α) (env : MEnv α) (s : Except Err (TEnv α)) : Prop :=
  match s with
  | .ok env' => r.out = .ok () ∧ r.env.tensors = env'
  | .error e => r.out = .error (.other e) ∧ r.env = env

theorem memFirst_spec {may : Bool} {m : Memory} {env : MEnv α} {k : Memory → MStep α} :
    (memFirst may m env k).out = .error .badAlloc ∧ (memFirst may m env k).env = env ∨ ∃ m', memFirst may m env k = k m' := by
  unfold memFirst
  split
  · split
    · exact .inl ⟨rfl, rfl⟩
    · exact .inr ⟨_, rfl⟩
  · exact .inr ⟨_, rfl⟩

theorem memUpdate_spec {m : Memory} {env : MEnv α} {v : Nat} {f : Tensor α → Except Err (Tensor α)} :
    SameAs (memUpdate m env v f) env (match env.tensors v with
      | some x => (f x).map (env.tensors.put v)
      | none => .error .ub) := by
  unfold memUpdate SameAs
  cases hv : env v with
  | none => simp [MEnv.tensors, hv]
  | some a =>
    have : env.tensors v = some a.t := by simp [MEnv.tensors, hv]
    rw [this]
    cases hf : f a.t with
    | error e => simp [hf, Except.map]
    | ok y => simp [hf, Except.map, MEnv.tensors_put]

/-- **C84** A call that does not run out of memory does what it does with unlimited memory: same outcome, same objects.
(Validates the model of this property against the one of the others.) -/
theorem C84_refines (cfg : Cfg) (ops : ElemOps α) (m : Memory) (env : MEnv α) (op : TOp α)
    (h : ((MOp.of op).step cfg ops m env).out ≠ .error .badAlloc) :
    SameAs ((MOp.of op).step cfg ops m env) env (op.step cfg ops env.tensors) := by
  cases op with
  | construct v shape f =>
    simp only [MOp.step, TOp.step] at h ⊢
    cases hn : Tensor.new ops shape f with
    | error e =>
      rw [hn] at h
      simp only [] at h ⊢
      split at h
      · split at h
        · rename_i h1 h2; simp [SameAs, h1, h2, Except.map]
        · exact absurd rfl h
      · exact absurd rfl h
    | ok x =>
      rw [hn] at h
      simp only [] at h ⊢
      split at h
      · rename_i h1; simp [SameAs, h1, Except.map, MEnv.tensors_put, Obj.tight]
      · exact absurd rfl h
  | load v input =>
    simp only [MOp.step, TOp.step] at h ⊢
    rcases memFirst_spec (may := true) (m := m) (env := env) with h1 | ⟨m', h1⟩
    · exact absurd h1.1 h
    · rw [h1]
      cases hl : (Npy.load cfg ops (IStream.ofBytes input)).1 with
      | error e => simp [SameAs, Except.map]
      | ok x => simp [SameAs, Except.map, MEnv.tensors_put, Obj.tight]
  | set v idx val =>
    simp only [MOp.step, TOp.step] at h ⊢
    rcases memFirst_spec (may := (!idx.isEmpty || ownsMemory ops)) (m := m) (env := env) with h1 | ⟨m', h1⟩
    · exact absurd h1.1 h
    · rw [h1]; exact memUpdate_spec
  | setU v idx val =>
    simp only [MOp.step, TOp.step] at h ⊢
    rcases memFirst_spec (may := ownsMemory ops) (m := m) (env := env) with h1 | ⟨m', h1⟩
    · exact absurd h1.1 h
    · rw [h1]; exact memUpdate_spec
  | poke v k val =>
    simp only [MOp.step, TOp.step] at h ⊢
    rcases memFirst_spec (may := ownsMemory ops) (m := m) (env := env) with h1 | ⟨m', h1⟩
    · exact absurd h1.1 h
    · rw [h1]
      have := memUpdate_spec (m := m') (env := env) (v := v)
        (f := fun x => if k < x.values.length then .ok { x with values := x.values.set k val } else .error .ub)
      cases hv : env.tensors v with
      | none => rw [hv] at this; exact this
      | some x =>
        rw [hv] at this
        simp only [] at this ⊢
        split
        · rename_i hk; rw [if_pos hk] at this; exact this
        · rename_i hk; rw [if_neg hk] at this; exact this
  | copyFromPtr v source n =>
    simp only [MOp.step, TOp.step] at h ⊢
    cases hv : env v with
    | none => simp [SameAs, MEnv.tensors, hv]
    | some a =>
      have hvt : env.tensors v = some a.t := by simp [MEnv.tensors, hv]
      rw [hv] at h
      simp only [hvt, Tensor.copyFromPtr] at h ⊢
      split
      · simp [SameAs, Except.map]
      · rename_i hn
        split
        · simp [SameAs, Except.map]
        · rename_i hs
          rw [if_neg hn, if_neg hs] at h
          have hn' : n = a.t.values.length := by simpa using hn
          obtain ⟨k, _, h2, h3, h4⟩ := copyElems_done (ownsMemory ops) m (source.take n)
          simp only [memCopyFrom] at h ⊢
          cases hok : (copyElems (ownsMemory ops) m (source.take n)).ok with
          | false => rw [hok] at h; exact absurd rfl h
          | true =>
            have hk := h3 hok
            rw [hk, List.take_length] at h2
            have hl : (source.take n).length = n := by rw [List.length_take]; omega
            simp [SameAs, Except.map, MEnv.tensors_put, h2, hl]
  | copyFrom v source =>
    simp only [MOp.step, TOp.step] at h ⊢
    cases hv : env v with
    | none => simp [SameAs, MEnv.tensors, hv]
    | some a =>
      have hvt : env.tensors v = some a.t := by simp [MEnv.tensors, hv]
      rw [hv] at h
      simp only [hvt, Tensor.copyFrom] at h ⊢
      split
      · simp [SameAs, Except.map]
      · rename_i hn
        rw [if_neg hn] at h
        obtain ⟨k, _, h2, h3, h4⟩ := copyElems_done (ownsMemory ops) m source
        simp only [memCopyFrom] at h ⊢
        cases hok : (copyElems (ownsMemory ops) m source).ok with
        | false => rw [hok] at h; exact absurd rfl h
        | true =>
          have hk := h3 hok
          rw [hk, List.take_length] at h2
          simp [SameAs, Except.map, MEnv.tensors_put, h2]
  | moveFrom v source =>
    simp only [MOp.step, TOp.step] at h ⊢
    cases hv : env v with
    | none => simp [SameAs, MEnv.tensors, hv]
    | some a =>
      have hvt : env.tensors v = some a.t := by simp [MEnv.tensors, hv]
      simp only [hvt]
      cases a.t.moveFrom source with
      | error e => simp [SameAs, Except.map]
      | ok y => simp [SameAs, Except.map, MEnv.tensors_put]
  | copyTensor dst src =>
    simp only [MOp.step, TOp.step] at h ⊢
    cases hv : env src with
    | none => simp [SameAs, MEnv.tensors, hv]
    | some b =>
      have hvt : env.tensors src = some b.t := by simp [MEnv.tensors, hv]
      rw [hv] at h
      simp only [hvt] at h ⊢
      split at h
      · rename_i h1; simp [SameAs, h1, MEnv.tensors_put, Obj.tight]
      · exact absurd rfl h
  | moveTensor dst src =>
    simp only [MOp.step, TOp.step] at h ⊢
    cases hv : env src with
    | none => simp [SameAs, MEnv.tensors, hv]
    | some b =>
      have hvt : env.tensors src = some b.t := by simp [MEnv.tensors, hv]
      simp only [hvt]
      simp [SameAs, MEnv.tensors_put]

/-! ### Calls that fail -/

/-- What an out-of-memory call other than copy assignment leaves behind. -/
theorem failed_env (cfg : Cfg) (ops : ElemOps α) (m : Memory) (env : MEnv α) (op : TOp α)
    (h : ((MOp.of op).step cfg ops m env).out = .error .badAlloc) :
    ((MOp.of op).step cfg ops m env).env = env ∨
      ops.dtype = .unicode ∧ ∃ v a source k, (op = .copyFrom v source ∨ ∃ n rest, op = .copyFromPtr v (source ++ rest) n ∧ n = source.length) ∧
        env v = some a ∧ source.length = a.t.values.length ∧ k < source.length ∧
        ((MOp.of op).step cfg ops m env).env = env.put v { a with t := { a.t with values := source.take k ++ a.t.values.drop k } } := by
  have hu : ∀ m (v : Nat) (f : Tensor α → Except Err (Tensor α)), (memUpdate m env v f).out ≠ .error .badAlloc := by
    intro m v f
    unfold memUpdate
    cases env v with
    | none => simp
    | some a => simp only []; cases f a.t <;> simp
  have hcf : ∀ (v : Nat) (a : Obj α) (source : List α), (memCopyFrom (ownsMemory ops) m env v a source).out = .error .badAlloc →
      ops.dtype = .unicode ∧ ∃ k < source.length, (memCopyFrom (ownsMemory ops) m env v a source).env =
        env.put v { a with t := { a.t with values := source.take k ++ a.t.values.drop k } } := by
    intro v a source h
    obtain ⟨k, h1, h2, h3, h4⟩ := copyElems_done (ownsMemory ops) m source
    unfold memCopyFrom at h ⊢
    simp only [] at h ⊢
    split at h
    · simp at h
    · rename_i hok
      obtain ⟨h5, h6⟩ := h4 (by simpa using hok)
      refine ⟨by simpa [ownsMemory] using h6, k, h5, ?_⟩
      rw [h2, List.length_take, Nat.min_eq_left h1]
  cases op with
  | construct v shape f =>
    left
    simp only [MOp.step] at h ⊢
    cases hn : Tensor.new ops shape f with
    | error e =>
      simp only []
      split
      · split <;> rfl
      · rfl
    | ok x =>
      rw [hn] at h
      simp only [] at h ⊢
      split at h
      · simp at h
      · rename_i h1; simp [h1]
  | load v input =>
    left
    simp only [MOp.step] at h ⊢
    rcases memFirst_spec (may := true) (m := m) (env := env) with h1 | ⟨m', h1⟩
    · exact h1.2
    · rw [h1] at h ⊢
      cases hl : (Npy.load cfg ops (IStream.ofBytes input)).1 with
      | error e => rfl
      | ok x => rw [hl] at h; simp at h
  | set v idx val =>
    left
    simp only [MOp.step] at h ⊢
    rcases memFirst_spec (may := (!idx.isEmpty || ownsMemory ops)) (m := m) (env := env) with h1 | ⟨m', h1⟩
    · exact h1.2
    · rw [h1] at h; exact absurd h (hu _ _ _)
  | setU v idx val =>
    left
    simp only [MOp.step] at h ⊢
    rcases memFirst_spec (may := ownsMemory ops) (m := m) (env := env) with h1 | ⟨m', h1⟩
    · exact h1.2
    · rw [h1] at h; exact absurd h (hu _ _ _)
  | poke v k val =>
    left
    simp only [MOp.step] at h ⊢
    rcases memFirst_spec (may := ownsMemory ops) (m := m) (env := env) with h1 | ⟨m', h1⟩
    · exact h1.2
    · rw [h1] at h; exact absurd h (hu _ _ _)
  | copyFromPtr v source n =>
    simp only [MOp.step] at h ⊢
    cases hv : env v with
    | none => left; rfl
    | some a =>
      rw [hv] at h
      simp only [] at h ⊢
      split
      · left; rfl
      · rename_i hn
        split
        · left; rfl
        · rename_i hs
          rw [if_neg hn, if_neg hs] at h
          right
          obtain ⟨h1, k, h2, h3⟩ := hcf v a _ h
          have hl : (source.take n).length = n := by rw [List.length_take]; omega
          exact ⟨h1, v, a, source.take n, k, .inr ⟨n, source.drop n, by rw [List.take_append_drop], hl.symm⟩, hv,
            by rw [hl]; simpa using hn, h2, h3⟩
  | copyFrom v source =>
    simp only [MOp.step] at h ⊢
    cases hv : env v with
    | none => left; rfl
    | some a =>
      rw [hv] at h
      simp only [] at h ⊢
      split
      · left; rfl
      · rename_i hn
        rw [if_neg hn] at h
        right
        obtain ⟨h1, k, h2, h3⟩ := hcf v a _ h
        exact ⟨h1, v, a, source, k, .inl rfl, hv, by simpa using hn, h2, h3⟩
  | moveFrom v source =>
    left
    simp only [MOp.step] at h ⊢
    cases hv : env v with
    | none => rfl
    | some a =>
      rw [hv] at h
      simp only [] at h ⊢
      cases hm : a.t.moveFrom source with
      | error e => rfl
      | ok y => rw [hm] at h; simp at h
  | copyTensor dst src =>
    left
    simp only [MOp.step] at h ⊢
    cases hv : env src with
    | none => rfl
    | some b =>
      rw [hv] at h
      simp only [] at h ⊢
      split at h
      · simp at h
      · rename_i h1; simp [h1]
  | moveTensor dst src =>
    left
    simp only [MOp.step] at h ⊢
    cases hv : env src with
    | none => rfl
    | some b => rw [hv] at h; simp at h

/-- **C84** A call that throws `std::bad_alloc` leaves every object as it was, except for copy assignment and, in tensors of strings,
`copy_from`. -/
theorem C84_unchanged (cfg : Cfg) (ops : ElemOps α) (m : Memory) (env : MEnv α) (op : TOp α)
    (hop : ops.dtype ≠ .unicode ∨ (∀ v l, op ≠ .copyFrom v l) ∧ (∀ v l n, op ≠ .copyFromPtr v l n))
    (h : ((MOp.of op).step cfg ops m env).out = .error .badAlloc) : ((MOp.of op).step cfg ops m env).env = env := by
  rcases failed_env cfg ops m env op h with h1 | ⟨h1, v, a, source, k, h2, _⟩
  · exact h1
  · rcases hop with hop | ⟨hop1, hop2⟩
    · exact absurd h1 hop
    · rcases h2 with h2 | ⟨n, rest, h2, _⟩
      · exact absurd h2 (hop1 _ _)
      · exact absurd h2 (hop2 _ _ _)

/-- **C84** A `copy_from` of strings that throws `std::bad_alloc` has assigned some of the first elements, and nothing else; every such
number of elements is possible. (Compare C26: the other failures of `copy_from` change nothing.) -/
theorem C84_copy_from_strings (cfg : Cfg) (env env' : MEnv WStr) (v : Nat) (a : Obj WStr) (source : List WStr) (hv : env v = some a)
    (hlen : source.length = a.t.values.length) :
    (∃ m, ((MOp.of (.copyFrom v source)).step cfg wideOps m env).out = .error .badAlloc ∧
      ((MOp.of (.copyFrom v source)).step cfg wideOps m env).env = env') ↔
    ∃ k < source.length, env' = env.put v { a with t := { a.t with values := source.take k ++ a.t.values.drop k } } := by
  constructor
  · rintro ⟨m, h1, h2⟩
    simp only [MOp.step, hv] at h1 h2
    rw [if_neg (by simpa using hlen)] at h1 h2
    obtain ⟨k, g1, g2, g3, g4⟩ := copyElems_done (ownsMemory wideOps) m source
    unfold memCopyFrom at h1 h2
    simp only [] at h1 h2
    split at h1
    · simp at h1
    · rename_i hok
      refine ⟨k, (g4 (by simpa using hok)).1, ?_⟩
      rw [← h2, g2, List.length_take, Nat.min_eq_left g1]
  · rintro ⟨k, hk, rfl⟩
    have hc : ∀ (k : Nat) (l : List WStr), k < l.length →
        copyElems true (List.replicate k false ++ [true]) l = ⟨false, l.take k, []⟩ := by
      intro k
      induction k with
      | zero => intro l hl; match l, hl with | x :: xs, _ => rfl
      | succ k ih =>
        intro l hl
        match l, hl with
        | x :: xs, hl =>
          rw [copyElems, if_pos rfl, List.replicate_succ, List.cons_append, List.headD_cons, if_neg (by simp), List.tail_cons,
            ih xs (by simpa using hl)]
          rfl
    refine ⟨List.replicate k false ++ [true], ?_⟩
    simp only [MOp.step, hv]
    rw [if_neg (by simpa using hlen)]
    unfold memCopyFrom
    simp only [show ownsMemory wideOps = true from rfl, hc k source hk]
    refine ⟨rfl, ?_⟩
    rw [List.length_take, Nat.min_eq_left (Nat.le_of_lt hk)]

/-! ### Copy assignment -/

theorem assign_mem_step (cfg : Cfg) (ops : ElemOps α) (m : Memory) (env : MEnv α) {dst src : Nat} (hne : dst ≠ src) {a b : Obj α}
    (ha : env dst = some a) (hb : env src = some b) :
    (MOp.assign dst src).step cfg ops m env =
      ⟨if (Obj.assign (ownsMemory ops) m a b).1 then .ok () else .error .badAlloc,
        env.put dst (Obj.assign (ownsMemory ops) m a b).2.1, (Obj.assign (ownsMemory ops) m a b).2.2⟩ := by
  simp only [MOp.step, ha, hb, if_neg hne]

/-- **C84** A copy assignment that returns has made the target equal to the source, whatever the target was before, for instance
one that an earlier assignment has left half done; and it changes nothing else. -/
theorem C84_assign_returns (cfg : Cfg) (ops : ElemOps α) (m : Memory) (env : MEnv α) (dst src : Nat) (a b : Obj α)
    (ha : env dst = some a) (hb : env src = some b) (h : ((MOp.assign dst src).step cfg ops m env).out = .ok ()) :
    (∃ a', ((MOp.assign dst src).step cfg ops m env).env dst = some a' ∧ a'.t = b.t) ∧
      ∀ v, v ≠ dst → ((MOp.assign dst src).step cfg ops m env).env v = env v := by
  by_cases hne : dst = src
  · subst hne
    rw [ha] at hb
    simp only [Option.some.injEq] at hb
    have e : (MOp.assign dst dst).step cfg ops m env = ⟨.ok (), env, m⟩ := by simp only [MOp.step, ha, if_true]
    rw [e]
    exact ⟨⟨a, ha, by rw [hb]⟩, fun v _ => rfl⟩
  · rw [assign_mem_step cfg ops m env hne ha hb] at h ⊢
    simp only [] at h ⊢
    refine ⟨⟨(Obj.assign (ownsMemory ops) m a b).2.1, by simp [MEnv.put], ?_⟩, fun v hv => by simp [MEnv.put, hv]⟩
    have h1 : (Obj.assign (ownsMemory ops) m a b).1 = true := by
      cases hh : (Obj.assign (ownsMemory ops) m a b).1 with
      | true => rfl
      | false => rw [hh] at h; simp at h
    revert h1
    unfold Obj.assign
    simp only []
    split
    · rename_i h2
      split
      · rename_i h3
        intro h4
        simp only [] at h4 ⊢
        rw [vecAssign_ok h2, vecAssign_ok h3, vecAssign_ok h4]
      · simp
    · simp

/-- **C84** Whatever a copy assignment does, it changes no object but its target. -/
theorem C84_assign_others (cfg : Cfg) (ops : ElemOps α) (m : Memory) (env : MEnv α) (dst src v : Nat) (hv : v ≠ dst) :
    ((MOp.assign dst src).step cfg ops m env).env v = env v := by
  simp only [MOp.step]
  cases ha : env dst with
  | none => rfl
  | some a =>
    cases hb : env src with
    | none => rfl
    | some b =>
      simp only []
      split
      · rfl
      · simp [MEnv.put, hv]

/-- **C84** A copy assignment that throws leaves all other objects as they were, and, for elements of fixed size, the target as
it was, or with the shape of the source, or with everything of the source but the elements; each only where the respective vector
of the target has no room. -/
theorem C84_assign_throws (cfg : Cfg) (ops : ElemOps α) (hf : ops.dtype ≠ .unicode) (m : Memory) (env : MEnv α) (dst src : Nat)
    (a b : Obj α) (ha : env dst = some a) (hb : env src = some b)
    (h : ((MOp.assign dst src).step cfg ops m env).out = .error .badAlloc) :
    (∀ v, v ≠ dst → ((MOp.assign dst src).step cfg ops m env).env v = env v) ∧
    ∃ a', ((MOp.assign dst src).step cfg ops m env).env dst = some a' ∧
      (a'.t = a.t ∧ a.shapeCap < b.t.shape.length ∨
       a'.t = { a.t with shape := b.t.shape } ∧ a.stridesCap < b.t.ravelStrides.length ∨
       a'.t = { b.t with values := a.t.values } ∧ a.valuesCap < b.t.values.length) := by
  by_cases hne : dst = src
  · subst hne
    simp only [MOp.step, ha, if_true] at h
    simp at h
  · rw [assign_mem_step cfg ops m env hne ha hb] at h ⊢
    simp only [] at h ⊢
    refine ⟨fun v hv => by simp [MEnv.put, hv], (Obj.assign (ownsMemory ops) m a b).2.1, by simp [MEnv.put], ?_⟩
    have h1 : (Obj.assign (ownsMemory ops) m a b).1 = false := by
      cases hh : (Obj.assign (ownsMemory ops) m a b).1 with
      | false => rfl
      | true => rw [hh] at h; simp at h
    revert h1
    rw [ownsMemory_false hf]
    unfold Obj.assign
    simp only []
    split
    · rename_i h2
      split
      · rename_i h3
        intro h4
        obtain ⟨h5, h6⟩ := vecAssign_fails h4
        refine .inr (.inr ⟨?_, h6⟩)
        rw [vecAssign_ok h2, vecAssign_ok h3, h5]
      · rename_i h3
        intro _
        obtain ⟨h5, h6⟩ := vecAssign_fails (by simpa using h3)
        refine .inr (.inl ⟨?_, h6⟩)
        simp only [vecAssign_ok h2, h5]
    · rename_i h2
      intro _
      obtain ⟨h5, h6⟩ := vecAssign_fails (by simpa using h2)
      refine .inl ⟨?_, h6⟩
      simp only [h5]

theorem vecAssign_left {β : Type} {owns : Bool} {m : Memory} {dst src : List β} {cap : Nat}
    (h : (vecAssign owns m dst cap src).ok = false) :
    (vecAssign owns m dst cap src).elems = dst ∧ cap < src.length ∨
      src.length ≤ cap ∧ ∃ k < src.length, (vecAssign owns m dst cap src).elems = (src.take k).take dst.length ++ dst.drop k := by
  unfold vecAssign at h ⊢
  simp only [] at h ⊢
  split
  · rename_i h1
    rw [if_pos h1] at h
    left
    refine ⟨?_, h1⟩
    split
    · rfl
    · rename_i h2
      rw [if_neg h2] at h
      split
      · rename_i h3; rw [if_pos h3] at h; simp at h
      · rfl
  · rename_i h1
    rw [if_neg h1] at h
    obtain ⟨k, g1, g2, g3, g4⟩ := copyElems_done owns m src
    split
    · rename_i h3; rw [if_pos h3] at h; simp at h
    · rename_i h3
      refine .inr ⟨by omega, k, (g4 (by simpa using h3)).1, ?_⟩
      rw [g2, List.length_take, Nat.min_eq_left g1]

/-- **C84** A copy assignment of strings that throws leaves the target as it was, or with the shape of the source, or with everything of
the source but the elements; these are then the target's own or, if there was room for those of the source, have been replaced one by one
from the first to some element before the last of the source, and none added. -/
theorem C84_assign_throws_strings (cfg : Cfg) (m : Memory) (env : MEnv WStr) (dst src : Nat)
    (a b : Obj WStr) (ha : env dst = some a) (hb : env src = some b)
    (h : ((MOp.assign dst src).step cfg wideOps m env).out = .error .badAlloc) :
    ∃ a', ((MOp.assign dst src).step cfg wideOps m env).env dst = some a' ∧
      (a'.t = a.t ∧ a.shapeCap < b.t.shape.length ∨
       a'.t = { a.t with shape := b.t.shape } ∧ a.stridesCap < b.t.ravelStrides.length ∨
       a'.t = { b.t with values := a.t.values } ∧ a.valuesCap < b.t.values.length ∨
       b.t.values.length ≤ a.valuesCap ∧ ∃ k < b.t.values.length,
         a'.t = { b.t with values := (b.t.values.take k).take a.t.values.length ++ a.t.values.drop k }) := by
  by_cases hne : dst = src
  · subst hne
    simp only [MOp.step, ha, if_true] at h
    simp at h
  · rw [assign_mem_step cfg wideOps m env hne ha hb] at h ⊢
    simp only [] at h ⊢
    refine ⟨(Obj.assign (ownsMemory wideOps) m a b).2.1, by simp [MEnv.put], ?_⟩
    have h1 : (Obj.assign (ownsMemory wideOps) m a b).1 = false := by
      cases hh : (Obj.assign (ownsMemory wideOps) m a b).1 with
      | false => rfl
      | true => rw [hh] at h; simp at h
    revert h1
    unfold Obj.assign
    simp only []
    split
    · rename_i h2
      split
      · rename_i h3
        intro h4
        right; right
        rcases vecAssign_left h4 with ⟨h5, h6⟩ | ⟨h5, k, h6, h7⟩
        · refine .inl ⟨?_, h6⟩
          rw [vecAssign_ok h2, vecAssign_ok h3, h5]
        · refine .inr ⟨h5, k, h6, ?_⟩
          rw [vecAssign_ok h2, vecAssign_ok h3, h7]
      · rename_i h3
        intro _
        obtain ⟨h5, h6⟩ := vecAssign_fails (by simpa using h3)
        refine .inr (.inl ⟨?_, h6⟩)
        simp only [vecAssign_ok h2, h5]
    · rename_i h2
      intro _
      obtain ⟨h5, h6⟩ := vecAssign_fails (by simpa using h2)
      refine .inl ⟨?_, h6⟩
      simp only [h5]

theorem copyElems_stop (k : Nat) (l : List WStr) (hl : k < l.length) :
    copyElems true (List.replicate k false ++ [true]) l = ⟨false, l.take k, []⟩ := by
  induction k generalizing l with
  | zero => match l, hl with | x :: xs, _ => rfl
  | succ k ih =>
    match l, hl with
    | x :: xs, hl =>
      rw [copyElems, if_pos rfl, List.replicate_succ, List.cons_append, List.headD_cons, if_neg (by simp), List.tail_cons,
        ih xs (by simpa using hl)]
      rfl

/-- **C84** The last case of `C84_assign_throws_strings` is possible for every number of elements, wherever there is room. -/
theorem C84_assign_strings_possible (cfg : Cfg) (env : MEnv WStr) (dst src : Nat) (hne : dst ≠ src)
    (a b : Obj WStr) (ha : env dst = some a) (hb : env src = some b) (h1 : b.t.shape.length ≤ a.shapeCap)
    (h2 : b.t.ravelStrides.length ≤ a.stridesCap) (h3 : b.t.values.length ≤ a.valuesCap) (k : Nat) (hk : k < b.t.values.length) :
    ∃ m a', ((MOp.assign dst src).step cfg wideOps m env).out = .error .badAlloc ∧
      ((MOp.assign dst src).step cfg wideOps m env).env dst = some a' ∧
      a'.t = { b.t with values := (b.t.values.take k).take a.t.values.length ++ a.t.values.drop k } := by
  refine ⟨List.replicate k false ++ [true], (Obj.assign true (List.replicate k false ++ [true]) a b).2.1, ?_, ?_, ?_⟩
  all_goals
    have e1 : vecAssign false (List.replicate k false ++ [true]) a.t.shape a.shapeCap b.t.shape =
        ⟨true, b.t.shape, a.shapeCap, List.replicate k false ++ [true]⟩ := by rw [vecAssign_fixed, if_neg (by omega)]
    have e2 : vecAssign false (List.replicate k false ++ [true]) a.t.ravelStrides a.stridesCap b.t.ravelStrides =
        ⟨true, b.t.ravelStrides, a.stridesCap, List.replicate k false ++ [true]⟩ := by rw [vecAssign_fixed, if_neg (by omega)]
    have e3 : vecAssign true (List.replicate k false ++ [true]) a.t.values a.valuesCap b.t.values =
        ⟨false, (b.t.values.take k).take a.t.values.length ++ a.t.values.drop k, a.valuesCap, []⟩ := by
      unfold vecAssign
      rw [if_neg (by omega)]
      simp only [copyElems_stop k _ hk]
      simp [Nat.min_eq_left (Nat.le_of_lt hk)]
  · rw [assign_mem_step cfg wideOps _ env hne ha hb]
    simp [Obj.assign, show ownsMemory wideOps = true from rfl, e1, e2, e3]
  · rw [assign_mem_step cfg wideOps _ env hne ha hb]
    simp [MEnv.put, show ownsMemory wideOps = true from rfl]
  · simp [Obj.assign, e1, e2, e3]

/-! ### When construction fails -/

/-- The first `n` of the coming allocations succeed. -/
def Granted (n : Nat) (m : Memory) : Prop := ∀ i < n, m.getD i false = false

theorem granted_zero (m : Memory) : Granted 0 m := fun i h => absurd h (by omega)

theorem granted_succ (n : Nat) (m : Memory) : Granted (n + 1) m ↔ m.headD false = false ∧ Granted n m.tail := by
  unfold Granted
  cases m with
  | nil => simp
  | cons x xs =>
    constructor
    · intro h
      refine ⟨by simpa using h 0 (by omega), fun i hi => ?_⟩
      simpa using h (i + 1) (by omega)
    · rintro ⟨h1, h2⟩ i hi
      cases i with
      | zero => simpa using h1
      | succ i => simpa using h2 i (by omega)

/-- The number of allocations for a new vector. -/
def perVector (n : Nat) : Nat := if n = 0 then 0 else 1

theorem vecAlloc_granted (n k : Nat) (m : Memory) :
    (vecAlloc m n).1 = true ∧ Granted k (vecAlloc m n).2 ↔ Granted (perVector n + k) m := by
  unfold vecAlloc perVector
  split
  · simp
  · rw [Nat.add_comm 1 k, granted_succ]; simp

theorem copyElems_granted {β : Type} (owns : Bool) (m : Memory) (src : List β) :
    (copyElems owns m src).ok = true ↔ Granted (if owns then src.length else 0) m := by
  induction src generalizing m with
  | nil => simp only [copyElems, List.length_nil, ite_self, true_iff]; exact granted_zero m
  | cons v vs ih =>
    rw [copyElems]
    cases owns with
    | false => simp only [Bool.false_eq_true, if_false] at ih ⊢; exact ih m
    | true =>
      simp only [if_true, List.length_cons] at ih ⊢
      rw [granted_succ, ← ih m.tail]
      split
      · rename_i h; simp only [h, Bool.false_eq_true, false_iff, Bool.true_eq_false, false_and, not_false_eq_true]
      · rename_i h; simp only [show m.headD false = false by simpa using h, true_and]

/-- **C84** Copy construction and construction return exactly if every allocation they make succeeds: one for each vector that is
not empty, and in a copy one for each string. Otherwise they throw `std::bad_alloc`. -/
theorem C84_construction (cfg : Cfg) (ops : ElemOps α) (m : Memory) (env : MEnv α) (dst src : Nat) (b : Obj α) (hb : env src = some b)
    (shape : List Nat) (f : Bool) (x : Tensor α) (hx : Tensor.new ops shape f = .ok x) :
    (((MOp.of (.copyTensor dst src)).step cfg ops m env).out = .ok () ↔
      Granted (perVector b.t.shape.length + (perVector b.t.ravelStrides.length + (perVector b.t.values.length +
        if ops.dtype = .unicode then b.t.values.length else 0))) m) ∧
    (((MOp.of (.copyTensor dst src)).step cfg ops m env).out = .ok () ∨
      ((MOp.of (.copyTensor dst src)).step cfg ops m env).out = .error .badAlloc) ∧
    (((MOp.of (.construct dst shape f)).step cfg ops m env).out = .ok () ↔
      Granted (perVector shape.length + (perVector shape.length + perVector x.values.length)) m) ∧
    (((MOp.of (.construct dst shape f)).step cfg ops m env).out = .ok () ∨
      ((MOp.of (.construct dst shape f)).step cfg ops m env).out = .error .badAlloc) := by
  have hv : x.values.length = Tensor.getSize shape := by
    unfold Tensor.new at hx
    split at hx
    · simp at hx
    · simp only [Except.ok.injEq] at hx
      rw [← hx]; simp
  have hc : (Obj.copyAlloc (ownsMemory ops) m b.t).1 = true ↔
      Granted (perVector b.t.shape.length + (perVector b.t.ravelStrides.length + (perVector b.t.values.length +
        if ops.dtype = .unicode then b.t.values.length else 0))) m := by
    have e : (if ops.dtype = .unicode then b.t.values.length else 0) = if ownsMemory ops then b.t.values.length else 0 := by
      simp [ownsMemory]
    rw [e, ← vecAlloc_granted, ← vecAlloc_granted, ← vecAlloc_granted, ← copyElems_granted]
    unfold Obj.copyAlloc
    simp only []
    split
    · rename_i h1
      split
      · rename_i h2
        split
        · rename_i h3; simp [h1, h2, h3]
        · rename_i h3; simp [h3]
      · rename_i h2; simp [h2]
    · rename_i h1; simp [h1]
  have hn : (Obj.newAlloc m shape).1 = true ↔
      Granted (perVector shape.length + (perVector shape.length + perVector x.values.length)) m := by
    rw [hv, ← vecAlloc_granted, ← vecAlloc_granted, ← Nat.add_zero (perVector (Tensor.getSize shape)), ← vecAlloc_granted]
    unfold Obj.newAlloc
    simp only [granted_zero, and_true]
    split
    · rename_i h1
      split
      · rename_i h2; simp [h1, h2]
      · rename_i h2; simp [h2]
    · rename_i h1; simp [h1]
  refine ⟨?_, ?_, ?_, ?_⟩
  · rw [← hc]
    simp only [MOp.step, hb]
    split
    · rename_i h; simp [h]
    · rename_i h; simp [h]
  · simp only [MOp.step, hb]
    split <;> simp
  · rw [← hn]
    simp only [MOp.step, hx]
    split
    · rename_i h; simp [h]
    · rename_i h; simp [h]
  · simp only [MOp.step, hx]
    split <;> simp

/-! ### Histories -/

/-- The extents a program passes to constructors are `size_t` values. -/
def MOp.Typed : MOp α → Prop
  | .of op => op.Typed
  | .assign _ _ => True

/-- In this run no copy assignment runs out of memory. -/
def AssignsReturn (cfg : Cfg) (ops : ElemOps α) : List (MOp α) → Memory → MEnv α → Prop
  | [], _, _ => True
  | op :: rest, m, env =>
    ((∃ dst src, op = .assign dst src) → (op.step cfg ops m env).out ≠ .error .badAlloc) ∧
      AssignsReturn cfg ops rest (op.step cfg ops m env).mem (op.step cfg ops m env).env

/-- **C84** In every history, wherever memory runs out except in copy assignments to existing objects, every tensor object has as many
elements as its extents multiply to modulo 2^64, the right strides and the dtype of its element type, or it has been moved from
and is empty; so C21 to C27 hold of it. -/
theorem C84_history (cfg : Cfg) (ops : ElemOps α) (ho : LibOps ops) (prog : List (MOp α)) (ht : ∀ op ∈ prog, op.Typed)
    (m : Memory) (hr : AssignsReturn cfg ops prog m (fun _ => none)) (env' : MEnv α)
    (h : MOp.runAll cfg ops prog m (fun _ => none) = some env') (v : Nat) (a : Obj α)
    (ha : env' v = some a) : TensorOk ops.dtype ops.sizeof a.t ∨ MovedFrom a.t := by
  have key : ∀ (prog : List (MOp α)), (∀ op ∈ prog, op.Typed) → ∀ (m : Memory) (env : MEnv α), AssignsReturn cfg ops prog m env →
      (∀ v x, env.tensors v = some x → x.Inv ops) → MOp.runAll cfg ops prog m env = some env' →
        ∀ v x, env'.tensors v = some x → x.Inv ops := by
    intro prog
    induction prog with
    | nil => intro _ m env _ he h; simp only [MOp.runAll, Option.some.injEq] at h; rw [← h]; exact he
    | cons op rest ih =>
      intro ht m env hr he h
      rw [MOp.runAll] at h
      obtain ⟨hr1, hr2⟩ := hr
      have hrest : ∀ o ∈ rest, o.Typed := fun o ho => ht o (by simp [ho])
      have hstep : ∀ v x, (op.step cfg ops m env).env.tensors v = some x → x.Inv ops := by
        cases op with
        | of op =>
          by_cases hb : ((MOp.of op).step cfg ops m env).out = .error .badAlloc
          · rcases failed_env cfg ops m env op hb with h1 | ⟨_, w, a, source, k, _, h2, h3, h4, h5⟩
            · rw [h1]; exact he
            · rw [h5, MEnv.tensors_put]
              refine TEnv.put_inv he ((he w a.t (by simp [MEnv.tensors, h2])).setValues ?_)
              simp only [List.length_append, List.length_take, List.length_drop]
              omega
          · have hs := C84_refines cfg ops m env op hb
            cases hst : op.step cfg ops env.tensors with
            | error e =>
              rw [hst] at hs
              rw [hs.2]; exact he
            | ok env1 =>
              rw [hst] at hs
              rw [hs.2]
              exact step_inv cfg ops ho _ _ he op (ht (.of op) (by simp)) hst
        | assign dst src =>
          have h1 := hr1 ⟨dst, src, rfl⟩
          cases hd : env dst with
          | none => simp only [MOp.step, hd]; exact he
          | some a =>
            cases hs : env src with
            | none => simp only [MOp.step, hd, hs]; exact he
            | some b =>
              have h2 : ((MOp.assign dst src).step cfg ops m env).out = .ok () := by
                revert h1
                simp only [MOp.step, hd, hs]
                split
                · simp
                · simp only []
                  split
                  · simp
                  · intro h; exact absurd rfl h
              obtain ⟨⟨a', h3, h4⟩, h5⟩ := C84_assign_returns cfg ops m env dst src a b hd hs h2
              intro v x hx
              by_cases hv : v = dst
              · subst hv
                simp only [MEnv.tensors, h3, Option.map_some, Option.some.injEq] at hx
                rw [← hx, h4]
                exact he src b.t (by simp [MEnv.tensors, hs])
              · simp only [MEnv.tensors, h5 v hv] at hx
                exact he v x hx
      split at h
      · exact ih hrest _ _ hr2 hstep h
      · exact ih hrest _ _ hr2 hstep h
      · exact ih hrest _ _ hr2 hstep h
      · simp at h
  rcases key prog ht m (fun _ => none) hr (by simp [MEnv.tensors]) h v a.t (by simp [MEnv.tensors, ha]) with h | h
  · exact .inl h
  · exact .inr h.1

/-- **C84** In particular in every history without copy assignment to existing objects, wherever memory runs out. -/
theorem C84_history_no_assign (cfg : Cfg) (ops : ElemOps α) (ho : LibOps ops) (prog : List (TOp α)) (ht : ∀ op ∈ prog, op.Typed)
    (m : Memory) (env' : MEnv α) (h : MOp.runAll cfg ops (prog.map .of) m (fun _ => none) = some env') (v : Nat) (a : Obj α)
    (ha : env' v = some a) : TensorOk ops.dtype ops.sizeof a.t ∨ MovedFrom a.t := by
  refine C84_history cfg ops ho _ ?_ m ?_ env' h v a ha
  · intro op hop
    obtain ⟨o, h1, rfl⟩ := List.mem_map.1 hop
    exact ht o h1
  · clear h ha ht
    generalize (fun _ => none : MEnv α) = env
    induction prog generalizing m env with
    | nil => trivial
    | cons op rest ih =>
      refine ⟨?_, ih _ _⟩
      rintro ⟨d, s, h⟩
      cases h

/-- The vectors of an object have room for what they hold. -/
def Obj.Roomy (a : Obj α) : Prop :=
  a.t.shape.length ≤ a.shapeCap ∧ a.t.ravelStrides.length ≤ a.stridesCap ∧ a.t.values.length ≤ a.valuesCap

theorem Obj.tight_roomy (x : Tensor α) : (Obj.tight x).Roomy := ⟨Nat.le_refl _, Nat.le_refl _, Nat.le_refl _⟩

theorem MEnv.put_roomy {env : MEnv α} (h : ∀ v a, env v = some a → a.Roomy) {w : Nat} {b : Obj α} (hb : b.Roomy) :
    ∀ v a, env.put w b v = some a → a.Roomy := by
  intro v a ha
  unfold MEnv.put at ha
  split at ha
  · simp only [Option.some.injEq] at ha; rw [← ha]; exact hb
  · exact h v a ha

theorem assign_roomy {owns : Bool} {m : Memory} {a b : Obj α} (ha : a.Roomy) : (Obj.assign owns m a b).2.1.Roomy := by
  unfold Obj.assign
  simp only []
  have h1 := vecAssign_room (owns := false) (m := m) (src := b.t.shape) ha.1
  split
  · have h2 := vecAssign_room (owns := false) (m := (vecAssign false m a.t.shape a.shapeCap b.t.shape).mem) (src := b.t.ravelStrides) ha.2.1
    split
    · exact ⟨h1, h2, vecAssign_room ha.2.2⟩
    · exact ⟨h1, h2, ha.2.2⟩
  · exact ⟨h1, ha.2.1, ha.2.2⟩

theorem step_roomy (cfg : Cfg) (ops : ElemOps α) (m : Memory) (env : MEnv α) (he : ∀ v a, env v = some a → a.Roomy) (op : MOp α) :
    ∀ v a, (op.step cfg ops m env).env v = some a → a.Roomy := by
  have hu : ∀ m (v : Nat) (f : Tensor α → Except Err (Tensor α)),
      (∀ x y, f x = .ok y → y.shape = x.shape ∧ y.ravelStrides = x.ravelStrides ∧ y.values.length = x.values.length) →
      ∀ w a, (memUpdate m env v f).env w = some a → a.Roomy := by
    intro m v f hf
    unfold memUpdate
    cases hv : env v with
    | none => exact he
    | some a =>
      simp only []
      cases hy : f a.t with
      | error e => exact he
      | ok y =>
        obtain ⟨h1, h2, h3⟩ := hf _ _ hy
        obtain ⟨g1, g2, g3⟩ := he v a hv
        exact MEnv.put_roomy he ⟨by rw [h1]; exact g1, by rw [h2]; exact g2, by rw [h3]; exact g3⟩
  have hcf : ∀ (v : Nat) (a : Obj α) (source : List α), env v = some a → source.length = a.t.values.length →
      ∀ w a', (memCopyFrom (ownsMemory ops) m env v a source).env w = some a' → a'.Roomy := by
    intro v a source hv hl
    obtain ⟨k, h1, h2, _, _⟩ := copyElems_done (ownsMemory ops) m source
    obtain ⟨g1, g2, g3⟩ := he v a hv
    refine MEnv.put_roomy he ⟨g1, g2, ?_⟩
    show (_ ++ _ : List α).length ≤ _
    rw [h2]
    simp only [List.length_append, List.length_take, List.length_drop]
    omega
  cases op with
  | of op =>
    cases op with
    | construct v shape f =>
      simp only [MOp.step]
      cases hn : Tensor.new ops shape f with
      | error e =>
        simp only []
        split
        · split <;> exact he
        · exact he
      | ok x =>
        simp only []
        split
        · exact MEnv.put_roomy he (Obj.tight_roomy x)
        · exact he
    | load v input =>
      simp only [MOp.step]
      rcases memFirst_spec (may := true) (m := m) (env := env) with h1 | ⟨m', h1⟩
      · rw [h1.2]; exact he
      · rw [h1]
        cases hl : (Npy.load cfg ops (IStream.ofBytes input)).1 with
        | error e => exact he
        | ok x => exact MEnv.put_roomy he (Obj.tight_roomy x)
    | set v idx val =>
      simp only [MOp.step]
      rcases memFirst_spec (may := (!idx.isEmpty || ownsMemory ops)) (m := m) (env := env) with h1 | ⟨m', h1⟩
      · rw [h1.2]; exact he
      · rw [h1]
        refine hu _ _ _ fun x y h => ?_
        unfold Tensor.set at h
        repeat' split at h
        all_goals simp only [Except.ok.injEq, reduceCtorEq] at h
        rw [← h]; simp
    | setU v idx val =>
      simp only [MOp.step]
      rcases memFirst_spec (may := ownsMemory ops) (m := m) (env := env) with h1 | ⟨m', h1⟩
      · rw [h1.2]; exact he
      · rw [h1]
        refine hu _ _ _ fun x y h => ?_
        unfold Tensor.setU at h
        repeat' split at h
        all_goals simp only [Except.ok.injEq, reduceCtorEq] at h
        rw [← h]; simp
    | poke v k val =>
      simp only [MOp.step]
      rcases memFirst_spec (may := ownsMemory ops) (m := m) (env := env) with h1 | ⟨m', h1⟩
      · rw [h1.2]; exact he
      · rw [h1]
        refine hu _ _ _ fun x y h => ?_
        split at h
        · simp only [Except.ok.injEq] at h
          rw [← h]; simp
        · simp at h
    | copyFromPtr v source n =>
      simp only [MOp.step]
      cases hv : env v with
      | none => exact he
      | some a =>
        simp only []
        split
        · exact he
        · rename_i hn
          split
          · exact he
          · exact hcf v a _ hv (by rw [List.length_take]; omega)
    | copyFrom v source =>
      simp only [MOp.step]
      cases hv : env v with
      | none => exact he
      | some a =>
        simp only []
        split
        · exact he
        · rename_i hn
          exact hcf v a _ hv (by simpa using hn)
    | moveFrom v source =>
      simp only [MOp.step]
      cases hv : env v with
      | none => exact he
      | some a =>
        simp only []
        cases hm : a.t.moveFrom source with
        | error e => exact he
        | ok y =>
          unfold Tensor.moveFrom at hm
          split at hm
          · simp at hm
          · simp only [Except.ok.injEq] at hm
            rw [← hm]
            obtain ⟨g1, g2, g3⟩ := he v a hv
            exact MEnv.put_roomy he ⟨g1, g2, Nat.le_refl _⟩
    | copyTensor dst src =>
      simp only [MOp.step]
      cases hv : env src with
      | none => exact he
      | some b =>
        simp only []
        split
        · exact MEnv.put_roomy he (Obj.tight_roomy _)
        · exact he
    | moveTensor dst src =>
      simp only [MOp.step]
      cases hv : env src with
      | none => exact he
      | some b =>
        simp only []
        exact MEnv.put_roomy (MEnv.put_roomy he (he src b hv)) ⟨Nat.le_refl _, Nat.le_refl _, Nat.le_refl _⟩
  | assign dst src =>
    simp only [MOp.step]
    cases ha : env dst with
    | none => exact he
    | some a =>
      cases hb : env src with
      | none => exact he
      | some b =>
        simp only []
        split
        · exact he
        · exact MEnv.put_roomy he (assign_roomy (he dst a ha))

/-- In every history, wherever memory runs out, the vectors of every object have room for what they hold. -/
theorem run_roomy (cfg : Cfg) (ops : ElemOps α) (prog : List (MOp α)) (m : Memory) (env env' : MEnv α)
    (he : ∀ v a, env v = some a → a.Roomy) (h : MOp.runAll cfg ops prog m env = some env') : ∀ v a, env' v = some a → a.Roomy := by
  induction prog generalizing m env with
  | nil => simp only [MOp.runAll, Option.some.injEq] at h; rw [← h]; exact he
  | cons op rest ih =>
    rw [MOp.runAll] at h
    split at h
    · exact ih _ _ (step_roomy cfg ops m env he op) h
    · exact ih _ _ (step_roomy cfg ops m env he op) h
    · exact ih _ _ (step_roomy cfg ops m env he op) h
    · simp at h

/-- **C84** Assigning a tensor of fixed-size elements to one with at least as many axes and elements needs no memory: after any
history, it returns. -/
theorem C84_assign_smaller (cfg : Cfg) (ops : ElemOps α) (hf : ops.dtype ≠ .unicode) (prog : List (MOp α)) (m0 : Memory) (env : MEnv α)
    (h : MOp.runAll cfg ops prog m0 (fun _ => none) = some env) (dst src : Nat) (a b : Obj α) (ha : env dst = some a) (hb : env src = some b)
    (h1 : b.t.shape.length ≤ a.t.shape.length) (h2 : b.t.ravelStrides.length ≤ a.t.ravelStrides.length)
    (h3 : b.t.values.length ≤ a.t.values.length) (m : Memory) : ((MOp.assign dst src).step cfg ops m env).out = .ok () := by
  obtain ⟨g1, g2, g3⟩ := run_roomy cfg ops prog m0 _ env (by simp) h dst a ha
  by_cases hne : dst = src
  · simp only [MOp.step, ha, hb, if_pos hne]
  · rw [assign_mem_step cfg ops m env hne ha hb, ownsMemory_false hf]
    have e1 : vecAssign false m a.t.shape a.shapeCap b.t.shape = ⟨true, b.t.shape, a.shapeCap, m⟩ := by
      rw [vecAssign_fixed, if_neg (by omega)]
    have e2 : vecAssign false m a.t.ravelStrides a.stridesCap b.t.ravelStrides = ⟨true, b.t.ravelStrides, a.stridesCap, m⟩ := by
      rw [vecAssign_fixed, if_neg (by omega)]
    have e3 : vecAssign false m a.t.values a.valuesCap b.t.values = ⟨true, b.t.values, a.valuesCap, m⟩ := by
      rw [vecAssign_fixed, if_neg (by omega)]
    simp only [Obj.assign, e1, e2, e3, if_true]

/-- **C84** is false of copy assignment: whenever the source has more elements than the target has room for, memory can run out so
that the target keeps its elements but has the shape of the source. Then `size()` is not the product of `shape()` (C20), and some index
in range makes `operator()` leave the buffer (C27). -/
theorem C84_assign_false (cfg : Cfg) (ops : ElemOps α) (env : MEnv α) (dst src : Nat) (hne : dst ≠ src)
    (a b : Obj α) (ha : env dst = some a) (hb : env src = some b) (hok : TensorOk ops.dtype ops.sizeof b.t) (hp : b.t.shape.prod < 2 ^ 64)
    (hr : a.t.values.length ≤ a.valuesCap) (hlt : a.valuesCap < b.t.values.length) :
    ∃ m a', ((MOp.assign dst src).step cfg ops m env).out = .error .badAlloc ∧
      ((MOp.assign dst src).step cfg ops m env).env dst = some a' ∧ a'.t.shape = b.t.shape ∧ a'.t.values = a.t.values ∧
      a'.t.values.length ≠ a'.t.shape.prod ∧ ∃ idx, InRange a'.t.shape idx ∧ a'.t.getU idx = .error .ub := by
  have hprod : b.t.values.length = b.t.shape.prod := by rw [hok.size, Nat.mod_eq_of_lt hp]
  have hs : ∀ (dst src : List Nat) (cap : Nat) (m : Memory), ∃ c, vecAssign false (if cap < src.length then false :: m else m) dst cap src =
      ⟨true, src, c, m⟩ := by
    intro dst src cap m
    rw [vecAssign_fixed]
    split
    · exact ⟨src.length, by simp⟩
    · exact ⟨cap, rfl⟩
  obtain ⟨c2, h2⟩ := hs a.t.ravelStrides b.t.ravelStrides a.stridesCap [true]
  obtain ⟨c1, h1⟩ := hs a.t.shape b.t.shape a.shapeCap (if a.stridesCap < b.t.ravelStrides.length then false :: [true] else [true])
  refine ⟨if a.shapeCap < b.t.shape.length then
      false :: (if a.stridesCap < b.t.ravelStrides.length then false :: [true] else [true]) else
      (if a.stridesCap < b.t.ravelStrides.length then false :: [true] else [true]),
    ⟨{ b.t with values := a.t.values }, c1, c2, a.valuesCap⟩, ?_, ?_, rfl, rfl, ?_, ?_⟩
  · rw [assign_mem_step cfg ops _ env hne ha hb]
    unfold Obj.assign
    simp only [h1, h2, if_true]
    simp [vecAssign, hlt]
  · rw [assign_mem_step cfg ops _ env hne ha hb]
    unfold Obj.assign
    simp only [h1, h2, if_true]
    simp [vecAssign, hlt, MEnv.put]
  · show a.t.values.length ≠ b.t.shape.prod
    omega
  · obtain ⟨idx, ⟨h3, h4⟩, _⟩ := C22_bijection b.t hok hp (b.t.values.length - 1) (by omega)
    refine ⟨idx, h3, ?_⟩
    have h5 : Tensor.ravelU { b.t with values := a.t.values } idx = .ok (b.t.values.length - 1) := h4
    simp only [Tensor.getU, h5, Tensor.at?]
    rw [List.getElem?_eq_none (by show a.t.values.length ≤ _; omega)]

/-- **C84** Copying first and moving then, `dst = tensor<T>(src)`, is all or nothing: if memory runs out no object has changed,
otherwise the target is equal to the source and no other object but the temporary has changed. -/
theorem C84_copy_then_move (cfg : Cfg) (ops : ElemOps α) (m : Memory) (env : MEnv α) (dst src tmp : Nat) (h1 : tmp ≠ dst)
    (b : Obj α) (hb : env src = some b) :
    let r := (MOp.of (.copyTensor tmp src)).step cfg ops m env
    r.out = .error .badAlloc ∧ r.env = env ∨
    r.out = .ok () ∧
      let r' := (MOp.of (.moveTensor dst tmp)).step cfg ops r.mem r.env
      r'.out = .ok () ∧ (∃ a, r'.env dst = some a ∧ a.t = b.t) ∧ ∀ v, v ≠ dst → v ≠ tmp → r'.env v = env v := by
  simp only [MOp.step, hb]
  cases hc : (Obj.copyAlloc (ownsMemory ops) m b.t).1 with
  | false => left; simp
  | true =>
    right
    simp only [if_true]
    refine ⟨trivial, ?_⟩
    have : (env.put tmp (Obj.tight b.t.copyFromTensor)) tmp = some (Obj.tight b.t.copyFromTensor) := by simp [MEnv.put]
    rw [this]
    refine ⟨rfl, ⟨{ Obj.tight b.t.copyFromTensor with t := (Obj.tight b.t.copyFromTensor).t.moveFromTensor.1 }, ?_, rfl⟩, fun v g1 g2 => ?_⟩
    · simp [MEnv.put, Ne.symm h1]
    · simp [MEnv.put, g1, g2]

/-! ### Examples -/

/-- A vector of 1000 numbers is assigned to one of 1 number, and there is no memory for the elements. -/
example : (MOp.runAll ⟨false, true, false⟩ (fixedOps .uint8)
      [.of (.construct 0 [1] false), .of (.construct 1 [1000] false), .assign 0 1]
      [false, false, false, false, false, false, true] (fun _ => none)).map
        (fun env => (env 0).map fun a => (a.t.shape, a.t.values.length, a.t.getU [999])) =
    some (some ([1000], 1, .error .ub)) := by
  decide +kernel

/-- Assigned the other way round, or copied first and moved then: no harm. -/
example : (MOp.runAll ⟨false, true, false⟩ (fixedOps .uint8)
      [.of (.construct 0 [1] false), .of (.construct 1 [1000] false), .of (.copyTensor 2 1), .assign 1 0]
      [false, false, false, false, false, false, false, false, true, true, true, true] (fun _ => none)).map
        (fun env => ((env 0).map fun a => (a.t.shape, a.t.values.length), (env 1).map fun a => (a.t.shape, a.t.values.length, a.valuesCap),
          (env 2).isSome)) =
    some (some ([1], 1), some ([1], 1, 1000), false) := by
  decide +kernel

/-- A history with a constructor that runs out of memory and an assignment that does not. -/
example (env : MEnv Elem) (h : MOp.runAll ⟨false, true, false⟩ (fixedOps .int16)
      [.of (.construct 0 [2] false), .of (.construct 1 [3, 4] true), .of (.construct 1 [3] true), .assign 0 1]
      [false, false, false, false, true] (fun _ => none) = some env) (a : Obj Elem) (ha : env 0 = some a) :
    TensorOk .int16 2 a.t ∨ MovedFrom a.t := by
  refine C84_history ⟨false, true, false⟩ (fixedOps .int16) (.fixed _ (by decide)) _ (by simp [MOp.Typed, TOp.Typed])
    [false, false, false, false, true] ?_ env h 0 a ha
  refine ⟨by simp, by simp, by simp, fun _ => ?_, trivial⟩
  intro hc
  have : ∀ r : Except TFault Unit, r = .error .badAlloc → (match r with | .ok _ => true | .error _ => false) = false := by rintro _ rfl; rfl
  exact absurd (this _ hc) (by decide +kernel)

/-- `copy_from` of three strings that stops after the first. -/
example : ((MOp.of (.copyFrom 0 [[97], [98], [99]])).step ⟨false, true, false⟩ wideOps [false, true]
      (fun _ => some (.tight ⟨[3], [1], false, .unicode, [[], [], []]⟩))).env 0 =
    some (.tight ⟨[3], [1], false, .unicode, [[97], [], []]⟩) := by decide

end Npy
