import Verif.Proofs.Pointers
/-!
# C85: pointers, references and iterators into tensors
-/

namespace Npy

variable {α : Type}

/-! ### The specification -/

/-- `p` points to element `k` of the vector at `sl`, which exists. -/
def PState.PointsTo (s : PState α) (p : Ptr) (sl : Slot) (k : Nat) : Prop :=
  s.mem.own sl = some (some p.buf) ∧ p.off = k ∧ ∃ l, s.mem.elems sl = some l ∧ k < l.length

/-- The calls after which tensor `v` may have other storage: a new object, an assignment, `move_from`, moving its values
away, the end of its life. -/
def POp.Renews (v : Nat) : POp α → Prop
  | .construct w _ _ => w = v
  | .load w _ => w = v
  | .moveFrom w _ => w = v
  | .copyTensor dst _ => dst = v
  | .assign dst _ => dst = v
  | .moveTensor dst src => dst = v ∨ src = v
  | .drop w => w = v
  | _ => False

/-- The tensors of a state as values. -/
def PState.tensors (s : PState α) : TEnv α := fun v => s.tensor v

/-- What a call does if tensors are values (`Model/History`) and vectors are lists; `write` is left out. -/
def POp.onValues (cfg : Cfg) (ops : ElemOps α) (s : PState α) : POp α → Except Err (TEnv α)
  | .construct v shape f => (TOp.construct v shape f).step cfg ops s.tensors
  | .load v input => (TOp.load v input).step cfg ops s.tensors
  | .set v idx val => (TOp.set v idx val).step cfg ops s.tensors
  | .setU v idx val => (TOp.setU v idx val).step cfg ops s.tensors
  | .copyFromPtr v p n => (TOp.copyFromPtr v (s.mem.rest p) n).step cfg ops s.tensors
  | .copyFrom v src => match s.mem.elems src with
    | some l => (TOp.copyFrom v l).step cfg ops s.tensors
    | none => .error .ub
  | .moveFrom v w => match s.mem.elems (.vec w) with
    | some l => (TOp.moveFrom v l).step cfg ops s.tensors
    | none => .error .ub
  | .copyTensor dst src => (TOp.copyTensor dst src).step cfg ops s.tensors
  | .assign dst src => if (s.tensor dst).isSome then (TOp.copyTensor dst src).step cfg ops s.tensors else .error .ub
  | .moveTensor dst src => (TOp.moveTensor dst src).step cfg ops s.tensors
  | .drop v => .ok fun w => if w = v then none else s.tensors w
  | .vec _ _ => .ok s.tensors
  | .write _ _ => .error .ub

/-- What vector `w` holds after a call. -/
def POp.onVectors (s : PState α) (op : POp α) (w : Nat) : Option (List α) := match op with
  | .vec w' l => if w = w' then some l else s.mem.elems (.vec w)
  | .moveFrom _ w' => if w = w' then some [] else s.mem.elems (.vec w)
  | _ => s.mem.elems (.vec w)

/-! ### The invariant -/

/-- The heap is well-formed, and a tensor object is there exactly if its vector is. -/
structure PState.WF (s : PState α) : Prop where
  mem : s.mem.WF
  objs : ∀ v, (s.info v).isSome = (s.mem.own (.tensor v)).isSome

theorem PState.start_wf : (PState.start : PState α).WF :=
  ⟨⟨by simp [PState.start], by simp [PState.start], by simp [PState.start], by simp [PState.start], by simp [PState.start]⟩,
    by simp [PState.start]⟩

theorem PState.WF.tensor_some {s : PState α} {v : Nat} {x : Tensor α} (h : s.tensor v = some x) :
    s.info v = some x.info ∧ s.mem.elems (.tensor v) = some x.values := by
  unfold PState.tensor at h
  split at h
  · rename_i i l hi hl
    simp only [Option.some.injEq] at h
    subst h
    exact ⟨by rw [hi]; rfl, hl⟩
  · simp at h

theorem PState.tensor_of {s : PState α} {v : Nat} {x : Tensor α} (hi : s.info v = some x.info) (hl : s.mem.elems (.tensor v) = some x.values) :
    s.tensor v = some x := by
  unfold PState.tensor
  rw [hi, hl]; rfl

theorem PState.tensor_congr {s s' : PState α} {v : Nat} (hi : s'.info v = s.info v) (hl : s'.mem.elems (.tensor v) = s.mem.elems (.tensor v)) :
    s'.tensor v = s.tensor v := by
  unfold PState.tensor
  rw [hi, hl]

theorem Vecs.put_ok {m m' : Vecs α} {s : Slot} {k : Nat} {x : α} (h : m.put s k x = .ok m') :
    ∃ b, m.own s = some (some b) ∧ m.write ⟨b, k⟩ x = .ok m' := by
  unfold Vecs.put Vecs.ptr at h
  cases ho : m.own s with
  | none => rw [ho] at h; simp at h
  | some o => cases o with
    | none => rw [ho] at h; simp at h
    | some b => rw [ho] at h; exact ⟨b, rfl, h⟩

theorem Vecs.put_wf {m m' : Vecs α} (hw : m.WF) {s : Slot} {k : Nat} {x : α} (h : m.put s k x = .ok m') : m'.WF := by
  obtain ⟨b, _, h1⟩ := Vecs.put_ok h
  exact Vecs.write_wf hw h1

theorem Vecs.put_own {m m' : Vecs α} {s : Slot} {k : Nat} {x : α} (h : m.put s k x = .ok m') : m'.own = m.own := by
  obtain ⟨b, _, h1⟩ := Vecs.put_ok h
  exact Vecs.write_own h1

/-- Element writes through a vector. -/
theorem Vecs.put_spec {m : Vecs α} (hw : m.WF) {s : Slot} {k : Nat} {x : α} {l : List α} (hl : m.elems s = some l) :
    if k < l.length then ∃ m', m.put s k x = .ok m' ∧ ∀ r, m'.elems r = if r = s then some (l.set k x) else m.elems r
    else m.put s k x = .error .ub := by
  unfold Vecs.put Vecs.ptr
  cases ho : m.own s with
  | none => simp [Vecs.elems, ho] at hl
  | some o => cases o with
    | none => simp only [Vecs.elems, ho, Option.some.injEq] at hl; simp [← hl]
    | some b =>
      obtain ⟨y, hy⟩ := hw.live _ _ ho
      rw [Vecs.elems_of_own ho hy] at hl
      simp only [Option.some.injEq] at hl
      subst hl
      simp only [Vecs.write, hy]
      split
      · exact ⟨_, rfl, fun r => Vecs.setBuf_elems hw ho _ r⟩
      · rfl

theorem PState.put_wf {s : PState α} (hw : s.WF) {v : Nat} {l : List α} {i : TInfo} {m : Vecs α} (hm : m.WF)
    (ho : ∀ r, r ≠ .tensor v → m.own r = s.mem.own r) (hl : m.elems (.tensor v) = some l) :
    ({ s with mem := m }.setInfo v (some i)).WF := by
  refine ⟨hm, fun w => ?_⟩
  by_cases h : w = v
  · subst h
    have := hm.elems_isSome (.tensor w)
    rw [hl] at this
    simpa [PState.setInfo] using this
  · have := hw.objs w
    simp only [PState.setInfo, if_neg h]
    rw [ho _ (by simpa using h)]
    exact this

theorem PState.same_wf {s : PState α} (hw : s.WF) {m : Vecs α} (hm : m.WF)
    (ho : ∀ w, (m.own (.tensor w)).isSome = (s.mem.own (.tensor w)).isSome) : ({ s with mem := m } : PState α).WF :=
  ⟨hm, fun w => by rw [ho w]; exact hw.objs w⟩

/-- Every call keeps the invariant. -/
theorem POp.step_wf (cfg : Cfg) (ops : ElemOps α) {s s' : PState α} (hw : s.WF) (op : POp α) (h : op.step cfg ops s = .ok s') :
    s'.WF := by
  cases op with
  | construct v shape f =>
    simp only [POp.step] at h
    split at h
    · simp at h
    · simp only [Except.ok.injEq] at h
      subst h
      exact PState.put_wf hw (Vecs.make_wf hw.mem _ _) (fun r hr => Vecs.make_own _ _ _ _ hr) (by rw [Vecs.make_elems hw.mem, if_pos rfl])
  | load v input =>
    simp only [POp.step] at h
    split at h
    · simp at h
    · simp only [Except.ok.injEq] at h
      subst h
      exact PState.put_wf hw (Vecs.make_wf hw.mem _ _) (fun r hr => Vecs.make_own _ _ _ _ hr) (by rw [Vecs.make_elems hw.mem, if_pos rfl])
  | set v idx val =>
    simp only [POp.step] at h
    split at h
    · simp at h
    · split at h
      · simp at h
      · rename_i k _
        cases hp : s.mem.put (.tensor v) k val with
        | error e => rw [hp] at h; simp [Except.map] at h
        | ok m =>
          rw [hp] at h
          simp only [Except.map, Except.ok.injEq] at h
          subst h
          exact PState.same_wf hw (Vecs.put_wf hw.mem hp) fun w => by rw [Vecs.put_own hp]
  | setU v idx val =>
    simp only [POp.step] at h
    split at h
    · simp at h
    · split at h
      · simp at h
      · rename_i k _
        cases hp : s.mem.put (.tensor v) k val with
        | error e => rw [hp] at h; simp [Except.map] at h
        | ok m =>
          rw [hp] at h
          simp only [Except.map, Except.ok.injEq] at h
          subst h
          exact PState.same_wf hw (Vecs.put_wf hw.mem hp) fun w => by rw [Vecs.put_own hp]
  | write p val =>
    simp only [POp.step] at h
    cases hp : s.mem.write p val with
    | error e => rw [hp] at h; simp [Except.map] at h
    | ok m =>
      rw [hp] at h
      simp only [Except.map, Except.ok.injEq] at h
      subst h
      exact PState.same_wf hw (Vecs.write_wf hw.mem hp) fun w => by rw [Vecs.write_own hp]
  | copyFromPtr v p n =>
    simp only [POp.step] at h
    split at h
    · simp at h
    · rename_i x hx
      split at h
      · simp at h
      · rename_i hn
        split at h
        · simp at h
        · rename_i hr
          simp only [Except.ok.injEq] at h
          subst h
          refine PState.same_wf hw (Vecs.fill_wf hw.mem _ _ _ (PState.WF.tensor_some hx).2 ?_) fun w => by rw [Vecs.fill_own]
          rw [List.length_take]
          have : n = x.values.length := by simpa using hn
          omega
  | copyFrom v src =>
    simp only [POp.step] at h
    split at h
    · rename_i x l hx hl
      split at h
      · simp at h
      · rename_i hn
        simp only [Except.ok.injEq] at h
        subst h
        exact PState.same_wf hw (Vecs.fill_wf hw.mem _ _ _ (PState.WF.tensor_some hx).2 (by simpa using hn)) fun w => by rw [Vecs.fill_own]
    · simp at h
  | moveFrom v w =>
    simp only [POp.step] at h
    split at h
    · rename_i x l hx hl
      split at h
      · simp at h
      · simp only [Except.ok.injEq] at h
        subst h
        refine PState.same_wf hw (Vecs.move_wf hw.mem _ _) fun u => ?_
        rw [Vecs.move_own, if_neg (by simp)]
        split
        · rename_i he
          rw [he, ← hw.mem.elems_isSome, ← hw.mem.elems_isSome, hl, (PState.WF.tensor_some hx).2]; rfl
        · rfl
    · simp at h
  | copyTensor dst src =>
    simp only [POp.step] at h
    split at h
    · simp at h
    · simp only [Except.ok.injEq] at h
      subst h
      exact PState.put_wf hw (Vecs.make_wf hw.mem _ _) (fun r hr => Vecs.make_own _ _ _ _ hr) (by rw [Vecs.make_elems hw.mem, if_pos rfl])
  | assign dst src =>
    simp only [POp.step] at h
    split at h
    · split at h
      · simp only [Except.ok.injEq] at h
        subst h; exact hw
      · simp only [Except.ok.injEq] at h
        subst h
        exact PState.put_wf hw (Vecs.assign_wf hw.mem _ _) (fun r hr => Vecs.assign_own hw.mem _ _ _ hr)
          (by rw [Vecs.assign_elems hw.mem, if_pos rfl])
    · simp at h
  | moveTensor dst src =>
    simp only [POp.step] at h
    split at h
    · simp at h
    · rename_i x hx
      simp only [Except.ok.injEq] at h
      subst h
      refine ⟨Vecs.move_wf hw.mem _ _, fun u => ?_⟩
      simp only [PState.setInfo]
      rw [Vecs.move_own]
      by_cases h1 : u = src
      · simp [h1]
      · have g1 : ¬Slot.tensor u = Slot.tensor src := by simpa using h1
        rw [if_neg h1, if_neg g1]
        by_cases h2 : u = dst
        · rw [if_pos h2, if_pos (by rw [h2]), ← hw.mem.elems_isSome, (PState.WF.tensor_some hx).2]; rfl
        · have g2 : ¬Slot.tensor u = Slot.tensor dst := by simpa using h2
          rw [if_neg h2, if_neg g2]; exact hw.objs u
  | drop v =>
    simp only [POp.step, Except.ok.injEq] at h
    subst h
    refine ⟨Vecs.destroy_wf hw.mem _, fun u => ?_⟩
    simp only [PState.setInfo]
    rw [Vecs.destroy_own]
    by_cases h1 : u = v
    · simp [h1]
    · rw [if_neg h1, if_neg (by simpa using h1)]; exact hw.objs u
  | vec w l =>
    simp only [POp.step, Except.ok.injEq] at h
    subst h
    refine PState.same_wf hw (Vecs.make_wf hw.mem _ _) fun u => ?_
    rw [Vecs.make_own _ _ _ _ (by simp)]

theorem POp.runAll_append (cfg : Cfg) (ops : ElemOps α) (a b : List (POp α)) (s : PState α) :
    POp.runAll cfg ops (a ++ b) s = (POp.runAll cfg ops a s).bind (POp.runAll cfg ops b) := by
  induction a generalizing s with
  | nil => rfl
  | cons op rest ih =>
    simp only [List.cons_append, POp.runAll]
    cases op.step cfg ops s with
    | ok s' => exact ih s'
    | error e => cases e <;> first | exact ih s | rfl

/-- An invariant of the calls is an invariant of programs. -/
theorem POp.runAll_inv (cfg : Cfg) (ops : ElemOps α) {I : PState α → Prop} (prog : List (POp α))
    (hstep : ∀ s s' op, op ∈ prog → s.WF → I s → op.step cfg ops s = .ok s' → I s') {s s' : PState α} (hw : s.WF) (hi : I s)
    (h : POp.runAll cfg ops prog s = some s') : s'.WF ∧ I s' := by
  induction prog generalizing s with
  | nil => simp only [POp.runAll, Option.some.injEq] at h; subst h; exact ⟨hw, hi⟩
  | cons op rest ih =>
    rw [POp.runAll] at h
    have hrest := fun s s' o (ho : o ∈ rest) => hstep s s' o (by simp [ho])
    split at h
    · rename_i s1 h1
      exact ih hrest (POp.step_wf cfg ops hw op h1) (hstep s s1 op (by simp) hw hi h1) h
    · exact ih hrest hw hi h
    · simp at h

theorem POp.runAll_wf (cfg : Cfg) (ops : ElemOps α) (prog : List (POp α)) {s : PState α}
    (h : POp.runAll cfg ops prog PState.start = some s) : s.WF :=
  (POp.runAll_inv cfg ops (I := fun _ => True) prog (fun _ _ _ _ _ _ _ => trivial) PState.start_wf trivial h).1

/-! ### Tensors are values -/

theorem tensors_fill {s : PState α} (hw : s.WF) {v : Nat} {x : Tensor α} (hx : s.tensor v = some x) {l : List α}
    (hl : l.length = x.values.length) :
    (({ s with mem := s.mem.fill (.tensor v) l } : PState α)).tensors = s.tensors.put v { x with values := l } := by
  obtain ⟨h1, h2⟩ := PState.WF.tensor_some hx
  funext w
  simp only [PState.tensors, TEnv.put]
  split
  · rename_i he
    subst he
    exact PState.tensor_of h1 (by rw [Vecs.fill_elems hw.mem _ _ _ _ h2 hl, if_pos rfl])
  · rename_i he
    exact PState.tensor_congr rfl (by rw [Vecs.fill_elems hw.mem _ _ _ _ h2 hl, if_neg (by simpa using he)])

theorem tensors_new {s : PState α} {v : Nat} {x : Tensor α} {m : Vecs α}
    (hm : ∀ r, m.elems r = if r = .tensor v then some x.values else s.mem.elems r) :
    (({ s with mem := m } : PState α).setInfo v (some x.info)).tensors = s.tensors.put v x := by
  funext w
  simp only [PState.tensors, TEnv.put]
  split
  · rename_i he
    subst he
    exact PState.tensor_of (by simp [PState.setInfo]) (by show m.elems _ = _; rw [hm, if_pos rfl])
  · rename_i he
    exact PState.tensor_congr (by simp [PState.setInfo, he]) (by show m.elems _ = _; rw [hm, if_neg (by simpa using he)])

theorem tensors_put {s : PState α} (hw : s.WF) {v : Nat} {x : Tensor α} (hx : s.tensor v = some x) (k : Nat) (val : α) :
    ((s.mem.put (.tensor v) k val).map fun m => ({ s with mem := m } : PState α).tensors) =
      if k < x.values.length then .ok (s.tensors.put v { x with values := x.values.set k val }) else .error .ub := by
  obtain ⟨h1, h2⟩ := PState.WF.tensor_some hx
  have := Vecs.put_spec (k := k) (x := val) hw.mem h2
  split at this
  · rename_i hk
    obtain ⟨m, h3, h4⟩ := this
    rw [if_pos hk, h3]
    simp only [Except.map, Except.ok.injEq]
    funext w
    simp only [PState.tensors, TEnv.put]
    split
    · rename_i he
      subst he
      exact PState.tensor_of h1 (by show m.elems _ = _; rw [h4, if_pos rfl])
    · rename_i he
      exact PState.tensor_congr rfl (by show m.elems _ = _; rw [h4, if_neg (by simpa using he)])
  · rename_i hk
    rw [if_neg hk, this]; rfl

theorem map_map {β γ δ : Type} (e : Except Err β) (f : β → γ) (g : γ → δ) : (e.map f).map g = e.map fun x => g (f x) := by
  cases e <;> rfl

theorem step_onValues (cfg : Cfg) (ops : ElemOps α) {s : PState α} (hw : s.WF) (op : POp α) (hop : ∀ p val, op ≠ .write p val) :
    (op.step cfg ops s).map PState.tensors = op.onValues cfg ops s := by
  cases op with
  | construct v shape f =>
    simp only [POp.step, POp.onValues, TOp.step]
    cases Tensor.new ops shape f with
    | error e => rfl
    | ok x => simp only [Except.map]; rw [tensors_new fun r => Vecs.make_elems hw.mem _ _ _]
  | load v input =>
    simp only [POp.step, POp.onValues, TOp.step]
    cases (Npy.load cfg ops (IStream.ofBytes input)).1 with
    | error e => rfl
    | ok x => simp only [Except.map]; rw [tensors_new fun r => Vecs.make_elems hw.mem _ _ _]
  | set v idx val =>
    simp only [POp.step, POp.onValues, TOp.step]
    cases hx : s.tensor v with
    | none => simp [PState.tensors, hx, Except.map]
    | some x =>
      simp only [PState.tensors, hx, Tensor.set]
      cases x.ravelI idx with
      | error e => rfl
      | ok k =>
        simp only []
        rw [map_map, tensors_put hw hx]
        split <;> rfl
  | setU v idx val =>
    simp only [POp.step, POp.onValues, TOp.step]
    cases hx : s.tensor v with
    | none => simp [PState.tensors, hx, Except.map]
    | some x =>
      simp only [PState.tensors, hx, Tensor.setU]
      cases x.ravelU idx with
      | error e => rfl
      | ok k =>
        simp only []
        rw [map_map, tensors_put hw hx]
        split <;> rfl
  | write p val => exact absurd rfl (hop p val)
  | copyFromPtr v p n =>
    simp only [POp.step, POp.onValues, TOp.step]
    cases hx : s.tensor v with
    | none => simp [PState.tensors, hx, Except.map]
    | some x =>
      have hxt : s.tensors v = some x := hx
      simp only [hxt, Tensor.copyFromPtr]
      split
      · rfl
      · rename_i hn
        split
        · rfl
        · rename_i hr
          have hl : ((s.mem.rest p).take n).length = x.values.length := by
            rw [List.length_take]
            have : n = x.values.length := by simpa using hn
            omega
          simp only [Except.map]
          rw [tensors_fill hw hx hl]
          have : x.values.drop n = [] := List.drop_eq_nil_of_le (by have : n = x.values.length := by simpa using hn
                                                                    omega)
          rw [this, List.append_nil]
  | copyFrom v src =>
    simp only [POp.step, POp.onValues, TOp.step]
    cases hx : s.tensor v with
    | none => cases s.mem.elems src <;> simp [PState.tensors, hx, Except.map]
    | some x =>
      have hxt : s.tensors v = some x := hx
      cases hl : s.mem.elems src with
      | none => rfl
      | some l =>
        simp only [hxt, Tensor.copyFrom]
        split
        · rfl
        · rename_i hn
          have hn : l.length = x.values.length := by simpa using hn
          simp only [Except.map]
          rw [tensors_fill hw hx hn, List.drop_eq_nil_of_le (Nat.le_of_eq hn.symm), List.append_nil]
  | moveFrom v w =>
    simp only [POp.step, POp.onValues, TOp.step]
    cases hx : s.tensor v with
    | none => cases s.mem.elems (.vec w) <;> simp [PState.tensors, hx, Except.map]
    | some x =>
      have hxt : s.tensors v = some x := hx
      obtain ⟨h1, h2⟩ := PState.WF.tensor_some hx
      cases hl : s.mem.elems (.vec w) with
      | none => rfl
      | some l =>
        simp only [hxt, Tensor.moveFrom]
        split
        · rfl
        · simp only [Except.map, Except.ok.injEq]
          funext u
          simp only [PState.tensors, TEnv.put]
          split
          · rename_i he
            subst he
            exact PState.tensor_of h1 (by
              show (s.mem.move (Slot.tensor _) (Slot.vec w)).elems (Slot.tensor u) = _
              rw [Vecs.move_elems hw.mem, if_neg (by simp), if_pos rfl, hl])
          · rename_i he
            exact PState.tensor_congr rfl (by
              show (s.mem.move (Slot.tensor _) (Slot.vec w)).elems (Slot.tensor u) = _
              rw [Vecs.move_elems hw.mem, if_neg (by simp), if_neg (by simpa using he)])
  | copyTensor dst src =>
    simp only [POp.step, POp.onValues, TOp.step]
    cases hx : s.tensor src with
    | none => simp [PState.tensors, hx, Except.map]
    | some x =>
      have hxt : s.tensors src = some x := hx
      simp only [hxt, Except.map]
      rw [tensors_new fun r => Vecs.make_elems hw.mem _ _ _]; rfl
  | assign dst src =>
    simp only [POp.step, POp.onValues, TOp.step]
    cases hd : s.tensor dst with
    | none => simp [Except.map]
    | some d =>
      simp only [Option.isSome_some, if_true]
      cases hx : s.tensor src with
      | none => simp [PState.tensors, hx, Except.map]
      | some x =>
        have hxt : s.tensors src = some x := hx
        simp only [hxt]
        split
        · rename_i he
          simp only [Except.map, Except.ok.injEq]
          funext w
          simp only [PState.tensors, TEnv.put]
          split
          · rename_i hh; rw [hh, he, hx]; rfl
          · rfl
        · simp only [Except.map]
          rw [tensors_new fun r => Vecs.assign_elems hw.mem _ _ _]; rfl
  | moveTensor dst src =>
    simp only [POp.step, POp.onValues, TOp.step]
    cases hx : s.tensor src with
    | none => simp [PState.tensors, hx, Except.map]
    | some x =>
      have hxt : s.tensors src = some x := hx
      obtain ⟨h1, h2⟩ := PState.WF.tensor_some hx
      simp only [hxt, Except.map, Except.ok.injEq]
      funext u
      simp only [PState.tensors, TEnv.put]
      by_cases hs : u = src
      · rw [if_pos hs]
        subst hs
        exact PState.tensor_of (by simp [PState.setInfo, Tensor.moveFromTensor, Tensor.info]) (by
          show (s.mem.move _ _).elems _ = _
          rw [Vecs.move_elems hw.mem, if_pos rfl]; rfl)
      · rw [if_neg hs]
        have g1 : ¬Slot.tensor u = Slot.tensor src := by simpa using hs
        by_cases hd : u = dst
        · rw [if_pos hd]
          subst hd
          exact PState.tensor_of (by simp [PState.setInfo, hs, Tensor.moveFromTensor, Tensor.copyFromTensor, Tensor.info]) (by
            show (s.mem.move _ _).elems _ = _
            rw [Vecs.move_elems hw.mem, if_neg g1, if_pos rfl, h2]; rfl)
        · rw [if_neg hd]
          have g2 : ¬Slot.tensor u = Slot.tensor dst := by simpa using hd
          exact PState.tensor_congr (by simp [PState.setInfo, hs, hd]) (by
            show (s.mem.move _ _).elems _ = _
            rw [Vecs.move_elems hw.mem, if_neg g1, if_neg g2])
  | drop v =>
    simp only [POp.step, POp.onValues, Except.map, Except.ok.injEq]
    funext w
    simp only [PState.tensors]
    split
    · rename_i he; simp [PState.tensor, PState.setInfo, he]
    · rename_i he
      exact PState.tensor_congr (by simp [PState.setInfo, he]) (by
        show (s.mem.destroy _).elems _ = _
        rw [Vecs.destroy_elems hw.mem, if_neg (by simpa using he)])
  | vec w l =>
    simp only [POp.step, POp.onValues, Except.map, Except.ok.injEq]
    funext u
    exact PState.tensor_congr rfl (by
      show (s.mem.make _ _).elems _ = _
      rw [Vecs.make_elems hw.mem, if_neg (by simp)])

/-- **C85** Tensors are values: although they own storage that pointers can refer to, and calls reuse it and hand it over, each
call in each history has on all tensors the effect it has on lists of values; in particular no two tensors share elements. -/
theorem C85_values (cfg : Cfg) (ops : ElemOps α) (prog : List (POp α)) (s : PState α)
    (h : POp.runAll cfg ops prog PState.start = some s) (op : POp α) (hop : ∀ p val, op ≠ .write p val) :
    (op.step cfg ops s).map PState.tensors = op.onValues cfg ops s :=
  step_onValues cfg ops (POp.runAll_wf cfg ops prog h) op hop

/-! ### Pointers -/

theorem write_elems {m m' : Vecs α} (hw : m.WF) {p : Ptr} {x : α} (h : m.write p x = .ok m') (r : Slot) :
    m'.elems r = if m.own r = some (some p.buf) then (m.elems r).map (·.set p.off x) else m.elems r := by
  obtain ⟨y, h1, h2, rfl⟩ := Vecs.write_ok h
  obtain ⟨o, ho⟩ := hw.owned _ _ h1
  rw [Vecs.setBuf_elems hw ho]
  by_cases hr : r = o
  · subst hr; rw [if_pos rfl, if_pos ho, Vecs.elems_of_own ho h1]; rfl
  · rw [if_neg hr, if_neg (fun hc => hr (hw.uniq _ _ _ hc ho))]

/-- The same storage with as many elements. -/
def Vecs.Kept (m m' : Vecs α) (sl : Slot) : Prop :=
  m'.own sl = m.own sl ∧ ∀ l, m.elems sl = some l → ∃ l', m'.elems sl = some l' ∧ l'.length = l.length

theorem Vecs.Kept.refl (m : Vecs α) (sl : Slot) : m.Kept m sl := ⟨rfl, fun l h => ⟨l, h, rfl⟩⟩

theorem Vecs.Kept.of_eq {m m' : Vecs α} {sl : Slot} (ho : m'.own sl = m.own sl) (he : m'.elems sl = m.elems sl) : m.Kept m' sl :=
  ⟨ho, fun l h => ⟨l, by rw [he]; exact h, rfl⟩⟩

theorem kept_put {m m' : Vecs α} (hw : m.WF) {r : Slot} {k : Nat} {x : α} (h : m.put r k x = .ok m') (sl : Slot) : m.Kept m' sl := by
  obtain ⟨b, _, h2⟩ := Vecs.put_ok h
  refine ⟨by rw [Vecs.write_own h2], fun l hl => ?_⟩
  rw [write_elems hw h2, hl]
  split
  · exact ⟨_, rfl, by simp⟩
  · exact ⟨_, rfl, rfl⟩

theorem kept_fill {m : Vecs α} (hw : m.WF) {r : Slot} {l l0 : List α} (h0 : m.elems r = some l0) (hl : l.length = l0.length) (sl : Slot) :
    m.Kept (m.fill r l) sl := by
  refine ⟨by rw [Vecs.fill_own], fun l1 h1 => ?_⟩
  rw [Vecs.fill_elems hw _ _ _ _ h0 hl]
  split
  · rename_i he
    rw [he, h0] at h1
    simp only [Option.some.injEq] at h1
    exact ⟨_, rfl, by rw [hl, h1]⟩
  · exact ⟨_, h1, rfl⟩

theorem step_kept (cfg : Cfg) (ops : ElemOps α) {s s' : PState α} (hw : s.WF) (op : POp α) (v : Nat) (hr : ¬ op.Renews v)
    (h : op.step cfg ops s = .ok s') : s.mem.Kept s'.mem (.tensor v) := by
  have hmake : ∀ (r : Slot) (l : List α), r ≠ .tensor v → s.mem.Kept (s.mem.make r l) (.tensor v) := fun r l hne =>
    .of_eq (Vecs.make_own _ _ _ _ hne.symm) (by rw [Vecs.make_elems hw.mem, if_neg hne.symm])
  cases op with
  | construct w shape f =>
    simp only [POp.step] at h
    split at h
    · simp at h
    · simp only [Except.ok.injEq] at h
      subst h
      exact hmake _ _ (by simpa [POp.Renews] using hr)
  | load w input =>
    simp only [POp.step] at h
    split at h
    · simp at h
    · simp only [Except.ok.injEq] at h
      subst h
      exact hmake _ _ (by simpa [POp.Renews] using hr)
  | set w idx val =>
    simp only [POp.step] at h
    split at h
    · simp at h
    · split at h
      · simp at h
      · rename_i k _
        cases hp : s.mem.put (.tensor w) k val with
        | error e => rw [hp] at h; simp [Except.map] at h
        | ok m =>
          rw [hp] at h
          simp only [Except.map, Except.ok.injEq] at h
          subst h
          exact kept_put hw.mem hp _
  | setU w idx val =>
    simp only [POp.step] at h
    split at h
    · simp at h
    · split at h
      · simp at h
      · rename_i k _
        cases hp : s.mem.put (.tensor w) k val with
        | error e => rw [hp] at h; simp [Except.map] at h
        | ok m =>
          rw [hp] at h
          simp only [Except.map, Except.ok.injEq] at h
          subst h
          exact kept_put hw.mem hp _
  | write p val =>
    simp only [POp.step] at h
    cases hp : s.mem.write p val with
    | error e => rw [hp] at h; simp [Except.map] at h
    | ok m =>
      rw [hp] at h
      simp only [Except.map, Except.ok.injEq] at h
      subst h
      refine ⟨by show m.own _ = _; rw [Vecs.write_own hp], fun l hl => ?_⟩
      show ∃ l', m.elems _ = some l' ∧ _
      rw [write_elems hw.mem hp, hl]
      split
      · exact ⟨_, rfl, by simp⟩
      · exact ⟨_, rfl, rfl⟩
  | copyFromPtr w p n =>
    simp only [POp.step] at h
    split at h
    · simp at h
    · rename_i x hx
      split at h
      · simp at h
      · rename_i hn
        split at h
        · simp at h
        · rename_i hr
          simp only [Except.ok.injEq] at h
          subst h
          refine kept_fill hw.mem (PState.WF.tensor_some hx).2 ?_ _
          rw [List.length_take]
          have : n = x.values.length := by simpa using hn
          omega
  | copyFrom w src =>
    simp only [POp.step] at h
    split at h
    · rename_i x l hx hl
      split at h
      · simp at h
      · rename_i hn
        simp only [Except.ok.injEq] at h
        subst h
        exact kept_fill hw.mem (PState.WF.tensor_some hx).2 (by simpa using hn) _
    · simp at h
  | moveFrom w u =>
    simp only [POp.step] at h
    split at h
    · split at h
      · simp at h
      · simp only [Except.ok.injEq] at h
        subst h
        have g : ¬Slot.tensor v = Slot.tensor w := by simpa [POp.Renews, eq_comm] using hr
        exact .of_eq (by show (s.mem.move (Slot.tensor w) (Slot.vec u)).own _ = _; rw [Vecs.move_own, if_neg (by simp), if_neg g])
          (by show (s.mem.move (Slot.tensor w) (Slot.vec u)).elems _ = _; rw [Vecs.move_elems hw.mem, if_neg (by simp), if_neg g])
    · simp at h
  | copyTensor dst src =>
    simp only [POp.step] at h
    split at h
    · simp at h
    · simp only [Except.ok.injEq] at h
      subst h
      exact hmake _ _ (by simpa [POp.Renews] using hr)
  | assign dst src =>
    simp only [POp.step] at h
    split at h
    · split at h
      · simp only [Except.ok.injEq] at h
        subst h; exact .refl _ _
      · simp only [Except.ok.injEq] at h
        subst h
        have g : ¬Slot.tensor v = Slot.tensor dst := by simpa [POp.Renews, eq_comm] using hr
        exact .of_eq (Vecs.assign_own hw.mem _ _ _ g) (by show (s.mem.assign _ _).elems _ = _; rw [Vecs.assign_elems hw.mem, if_neg g])
    · simp at h
  | moveTensor dst src =>
    simp only [POp.step] at h
    split at h
    · simp at h
    · simp only [Except.ok.injEq] at h
      subst h
      have g1 : ¬Slot.tensor v = Slot.tensor src := by simp only [POp.Renews, not_or] at hr; simpa [eq_comm] using hr.2
      have g2 : ¬Slot.tensor v = Slot.tensor dst := by simp only [POp.Renews, not_or] at hr; simpa [eq_comm] using hr.1
      exact .of_eq (by show (s.mem.move _ _).own _ = _; rw [Vecs.move_own, if_neg g1, if_neg g2])
        (by show (s.mem.move (Slot.tensor dst) (Slot.tensor src)).elems _ = _; rw [Vecs.move_elems hw.mem, if_neg g1, if_neg g2])
  | drop w =>
    simp only [POp.step, Except.ok.injEq] at h
    subst h
    have g : ¬Slot.tensor v = Slot.tensor w := by simpa [POp.Renews, eq_comm] using hr
    exact .of_eq (by show (s.mem.destroy _).own _ = _; rw [Vecs.destroy_own, if_neg g])
      (by show (s.mem.destroy _).elems _ = _; rw [Vecs.destroy_elems hw.mem, if_neg g])
  | vec w l =>
    simp only [POp.step, Except.ok.injEq] at h
    subst h
    exact hmake _ _ (by simp)

theorem PState.PointsTo.kept {s s' : PState α} {p : Ptr} {sl : Slot} {k : Nat} (hp : s.PointsTo p sl k) (h : s.mem.Kept s'.mem sl) :
    s'.PointsTo p sl k := by
  obtain ⟨h1, h2, l, h3, h4⟩ := hp
  obtain ⟨l', h5, h6⟩ := h.2 l h3
  exact ⟨by rw [h.1]; exact h1, h2, l', h5, by rw [h6]; exact h4⟩

/-- **C85** A pointer, reference or iterator to element `k` of a tensor points to element `k` of that tensor whatever the program
does, as long as the tensor gets no new storage (`POp.Renews`). -/
theorem C85_stable (cfg : Cfg) (ops : ElemOps α) (prog rest : List (POp α)) (s s' : PState α)
    (h : POp.runAll cfg ops prog PState.start = some s) (h' : POp.runAll cfg ops rest s = some s') (p : Ptr) (v k : Nat)
    (hp : s.PointsTo p (.tensor v) k) (hr : ∀ op ∈ rest, ¬ op.Renews v) : s'.PointsTo p (.tensor v) k :=
  (POp.runAll_inv cfg ops (I := fun s => s.PointsTo p (.tensor v) k) rest
    (fun _ _ op ho hw hi hs => hi.kept (step_kept cfg ops hw op v (hr op ho) hs)) (POp.runAll_wf cfg ops prog h) hp h').2

/-- **C85** `data() + k` and so on: there is a pointer to each element of each tensor, and only one; pointers to different
elements, of one tensor or of two, are different. -/
theorem C85_one_pointer_each (cfg : Cfg) (ops : ElemOps α) (prog : List (POp α)) (s : PState α)
    (h : POp.runAll cfg ops prog PState.start = some s) :
    (∀ v x k, s.tensor v = some x → k < x.values.length → ∃ p, s.mem.ptr (.tensor v) k = some p ∧ s.PointsTo p (.tensor v) k) ∧
    (∀ p q sl k, s.PointsTo p sl k → s.PointsTo q sl k → p = q) ∧
    (∀ p sl sl' k k', s.PointsTo p sl k → s.PointsTo p sl' k' → sl = sl' ∧ k = k') := by
  have hw := POp.runAll_wf cfg ops prog h
  refine ⟨fun v x k hx hk => ?_, fun p q sl k hp hq => ?_, fun p sl sl' k k' hp hq => ?_⟩
  · obtain ⟨_, h2⟩ := PState.WF.tensor_some hx
    unfold Vecs.ptr
    cases ho : s.mem.own (.tensor v) with
    | none => simp [Vecs.elems, ho] at h2
    | some o => cases o with
      | none => simp only [Vecs.elems, ho, Option.some.injEq] at h2; rw [← h2] at hk; simp at hk
      | some b => exact ⟨⟨b, k⟩, rfl, ho, rfl, _, h2, hk⟩
  · have h1 := hp.1.symm.trans hq.1
    have h2 := hp.2.1.trans hq.2.1.symm
    cases p; cases q
    simp_all
  · exact ⟨hw.mem.uniq _ _ _ hp.1 hq.1, hp.2.1.symm.trans hq.2.1⟩

/-- **C85** Reading and writing through a pointer to element `k` of tensor `v` reads and writes that element, and changes no other
element, no other tensor and no vector. -/
theorem C85_read_write (cfg : Cfg) (ops : ElemOps α) (prog : List (POp α)) (s : PState α)
    (h : POp.runAll cfg ops prog PState.start = some s) (p : Ptr) (v k : Nat) (hp : s.PointsTo p (.tensor v) k) :
    ∃ x, s.tensor v = some x ∧ k < x.values.length ∧ s.mem.read p = x.at? k ∧
      ∀ val, ∃ s', (POp.write p val).step cfg ops s = .ok s' ∧ s'.tensor v = some { x with values := x.values.set k val } ∧
        (∀ w, w ≠ v → s'.tensor w = s.tensor w) ∧ ∀ w, s'.mem.elems (.vec w) = s.mem.elems (.vec w) := by
  have hw := POp.runAll_wf cfg ops prog h
  obtain ⟨h1, h2, l, h3, h4⟩ := hp
  obtain ⟨y, hy⟩ := hw.mem.live _ _ h1
  have hl : y.elems = l := by rw [Vecs.elems_of_own h1 hy] at h3; simpa using h3
  have hi : ∃ i, s.info v = some i := by
    have := hw.objs v
    rw [h1] at this
    exact Option.isSome_iff_exists.mp this
  obtain ⟨i, hi⟩ := hi
  refine ⟨⟨i.shape, i.ravelStrides, i.fortranOrder, i.dtype, l⟩, by unfold PState.tensor; rw [hi, h3], h4, ?_, fun val => ?_⟩
  · simp only [Vecs.read, hy, hl, h2, Tensor.at?]
    cases l[k]? <;> rfl
  · have hwr : s.mem.write p val = .ok (s.mem.setBuf p.buf (some { y with elems := y.elems.set p.off val })) := by
      unfold Vecs.write
      simp only [hy]
      rw [if_pos (by rw [hl, h2]; exact h4)]
    have he := write_elems hw.mem hwr
    refine ⟨_, by simp only [POp.step, hwr, Except.map]; rfl, ?_, fun w hne => ?_, fun w => ?_⟩
    · have : (s.mem.setBuf p.buf (some { y with elems := y.elems.set p.off val })).elems (.tensor v) = some (l.set k val) := by
        rw [he, if_pos h1, h3, h2]; rfl
      unfold PState.tensor
      simp only [hi, this]
    · refine PState.tensor_congr rfl ?_
      show (s.mem.setBuf _ _).elems _ = _
      rw [he, if_neg (fun hc => hne (by simpa using hw.mem.uniq _ _ _ hc h1))]
    · show (s.mem.setBuf _ _).elems _ = _
      rw [he, if_neg (fun hc => by simpa using hw.mem.uniq _ _ _ hc h1)]

/-- **C85** Writing through a pointer into a vector of the program writes that element and changes no tensor and no other vector. -/
theorem C85_write_vector (cfg : Cfg) (ops : ElemOps α) (prog : List (POp α)) (s : PState α)
    (h : POp.runAll cfg ops prog PState.start = some s) (p : Ptr) (w k : Nat) (hp : s.PointsTo p (.vec w) k) (val : α) :
    ∃ s' l, (POp.write p val).step cfg ops s = .ok s' ∧ s.mem.elems (.vec w) = some l ∧ s'.mem.elems (.vec w) = some (l.set k val) ∧
      s'.tensors = s.tensors ∧ ∀ u, u ≠ w → s'.mem.elems (.vec u) = s.mem.elems (.vec u) := by
  have hw := POp.runAll_wf cfg ops prog h
  obtain ⟨h1, h2, l, h3, h4⟩ := hp
  obtain ⟨y, hy⟩ := hw.mem.live _ _ h1
  have hl : y.elems = l := by rw [Vecs.elems_of_own h1 hy] at h3; simpa using h3
  have hwr : s.mem.write p val = .ok (s.mem.setBuf p.buf (some { y with elems := y.elems.set p.off val })) := by
    unfold Vecs.write
    simp only [hy]
    rw [if_pos (by rw [hl, h2]; exact h4)]
  have he := write_elems hw.mem hwr
  refine ⟨_, l, by simp only [POp.step, hwr, Except.map]; rfl, h3, ?_, ?_, fun u hne => ?_⟩
  · show (s.mem.setBuf _ _).elems _ = _
    rw [he, if_pos h1, h3, h2]; rfl
  · funext v
    refine PState.tensor_congr rfl ?_
    show (s.mem.setBuf _ _).elems _ = _
    rw [he, if_neg (fun hc => by simpa using hw.mem.uniq _ _ _ hc h1)]
  · show (s.mem.setBuf _ _).elems _ = _
    rw [he, if_neg (fun hc => hne (by simpa using hw.mem.uniq _ _ _ hc h1))]

/-- **C85** A pointer can be used exactly if it points to an element, and what can be read from it on are the elements from there to
the end. -/
theorem C85_usable (cfg : Cfg) (ops : ElemOps α) (prog : List (POp α)) (s : PState α)
    (h : POp.runAll cfg ops prog PState.start = some s) (p : Ptr) :
    (s.mem.read p = .error .ub ↔ ¬ ∃ sl k, s.PointsTo p sl k) ∧
    (∀ x, (POp.write p x).step cfg ops s = .error .ub ↔ ¬ ∃ sl k, s.PointsTo p sl k) ∧
    (∀ sl k l, s.PointsTo p sl k → s.mem.elems sl = some l → s.mem.rest p = l.drop k) ∧
    ((¬ ∃ sl k, s.PointsTo p sl k) → s.mem.rest p = []) := by
  have hw := POp.runAll_wf cfg ops prog h
  have key : (∃ sl k, s.PointsTo p sl k) ↔ ∃ y, s.mem.bufs p.buf = some y ∧ p.off < y.elems.length := by
    constructor
    · rintro ⟨sl, k, h1, h2, l, h3, h4⟩
      obtain ⟨y, hy⟩ := hw.mem.live _ _ h1
      rw [Vecs.elems_of_own h1 hy] at h3
      simp only [Option.some.injEq] at h3
      exact ⟨y, hy, by rw [h3, h2]; exact h4⟩
    · rintro ⟨y, hy, hl⟩
      obtain ⟨sl, hs⟩ := hw.mem.owned _ _ hy
      exact ⟨sl, p.off, hs, rfl, _, Vecs.elems_of_own hs hy, hl⟩
  rw [key]
  refine ⟨?_, fun x => ?_, fun sl k l hp hl => ?_, fun hn => ?_⟩
  · unfold Vecs.read
    cases hb : s.mem.bufs p.buf with
    | none => simp
    | some y =>
      simp only [Option.some.injEq]
      by_cases hl : p.off < y.elems.length
      · rw [List.getElem?_eq_getElem hl]; simp [hl]
      · rw [List.getElem?_eq_none (by omega)]
        exact ⟨fun _ ⟨z, hz, h2⟩ => hl (hz ▸ h2), fun _ => rfl⟩
  · simp only [POp.step, Vecs.write]
    cases hb : s.mem.bufs p.buf with
    | none => simp [Except.map]
    | some y =>
      simp only [Option.some.injEq]
      by_cases hl : p.off < y.elems.length
      · simp [hl, Except.map]
      · rw [if_neg hl]
        exact ⟨fun _ ⟨z, hz, h2⟩ => hl (hz ▸ h2), fun _ => rfl⟩
  · obtain ⟨h1, h2, _⟩ := hp
    obtain ⟨y, hy⟩ := hw.mem.live _ _ h1
    rw [Vecs.elems_of_own h1 hy] at hl
    simp only [Option.some.injEq] at hl
    simp only [Vecs.rest, hy, hl, h2]
  · unfold Vecs.rest
    cases hb : s.mem.bufs p.buf with
    | none => rfl
    | some y =>
      simp only []
      exact List.drop_eq_nil_of_le (Nat.le_of_not_lt fun hl => hn ⟨y, hb, hl⟩)

/-! ### Moves hand pointers over -/

/-- **C85** Moving a tensor hands its storage over: pointers to its elements then point to the same elements of the target. -/
theorem C85_move (cfg : Cfg) (ops : ElemOps α) (prog : List (POp α)) (s s' : PState α)
    (h : POp.runAll cfg ops prog PState.start = some s) (p : Ptr) (dst src k : Nat) (hne : dst ≠ src)
    (hp : s.PointsTo p (.tensor src) k) (hs : (POp.moveTensor dst src).step cfg ops s = .ok s') : s'.PointsTo p (.tensor dst) k := by
  have hw := POp.runAll_wf cfg ops prog h
  simp only [POp.step] at hs
  split at hs
  · simp at hs
  · simp only [Except.ok.injEq] at hs
    subst hs
    obtain ⟨h1, h2, l, h3, h4⟩ := hp
    have g : ¬Slot.tensor dst = Slot.tensor src := by simpa using hne
    refine ⟨?_, h2, l, ?_, h4⟩
    · show (s.mem.move _ _).own _ = _
      rw [Vecs.move_own, if_neg g, if_pos rfl]; exact h1
    · show (s.mem.move (Slot.tensor dst) (Slot.tensor src)).elems _ = _
      rw [Vecs.move_elems hw.mem, if_neg g, if_pos rfl]; exact h3

/-- **C85** `move_from` takes the vector's storage over without copying: pointers into the vector then point into the tensor. -/
theorem C85_move_from (cfg : Cfg) (ops : ElemOps α) (prog : List (POp α)) (s s' : PState α)
    (h : POp.runAll cfg ops prog PState.start = some s) (p : Ptr) (v w k : Nat)
    (hp : s.PointsTo p (.vec w) k) (hs : (POp.moveFrom v w).step cfg ops s = .ok s') : s'.PointsTo p (.tensor v) k := by
  have hw := POp.runAll_wf cfg ops prog h
  simp only [POp.step] at hs
  split at hs
  · split at hs
    · simp at hs
    · simp only [Except.ok.injEq] at hs
      subst hs
      obtain ⟨h1, h2, l, h3, h4⟩ := hp
      refine ⟨?_, h2, l, ?_, h4⟩
      · show (s.mem.move (Slot.tensor v) (Slot.vec w)).own _ = _
        rw [Vecs.move_own, if_neg (by simp), if_pos rfl]; exact h1
      · show (s.mem.move (Slot.tensor v) (Slot.vec w)).elems _ = _
        rw [Vecs.move_elems hw.mem, if_neg (by simp), if_pos rfl]; exact h3
  · simp at hs

/-! ### Dangling pointers -/

/-- The buffer was freed. -/
def Vecs.Freed (m : Vecs α) (b : Nat) : Prop := m.bufs b = none ∧ b < m.next

theorem Vecs.Freed.make {m : Vecs α} {b : Nat} (h : m.Freed b) (r : Slot) (l : List α) : (m.make r l).Freed b :=
  ⟨by rw [Vecs.make_bufs r l b h.2, h.1]; simp, Nat.lt_of_lt_of_le h.2 (Vecs.make_next m r l)⟩

theorem Vecs.Freed.setBuf {m : Vecs α} {b c : Nat} (h : m.Freed b) {y : Storage α} (hc : m.bufs c = some y) (z : Option (Storage α)) :
    (m.setBuf c z).Freed b := by
  refine ⟨?_, h.2⟩
  have : b ≠ c := by rintro rfl; rw [h.1] at hc; simp at hc
  simp [Vecs.setBuf, this, h.1]

theorem Vecs.Freed.move {m : Vecs α} {b : Nat} (h : m.Freed b) (dst src : Slot) : (m.move dst src).Freed b :=
  ⟨by rw [Vecs.move_bufs, h.1]; simp, by rw [Vecs.move_next]; exact h.2⟩

theorem Vecs.Freed.put {m m' : Vecs α} {b : Nat} (h : m.Freed b) {r : Slot} {k : Nat} {x : α} (hp : m.put r k x = .ok m') : m'.Freed b := by
  obtain ⟨c, _, h2⟩ := Vecs.put_ok hp
  obtain ⟨y, h3, _, rfl⟩ := Vecs.write_ok h2
  exact h.setBuf h3 _

theorem Vecs.Freed.fill {m : Vecs α} {b : Nat} (h : m.Freed b) (r : Slot) (l : List α) : (m.fill r l).Freed b := by
  unfold Vecs.fill
  split
  · split
    · rename_i hy; exact h.setBuf hy _
    · exact h
  · exact h

theorem step_freed (cfg : Cfg) (ops : ElemOps α) {s s' : PState α} (hw : s.WF) (op : POp α) {b : Nat} (hb : s.mem.Freed b)
    (h : op.step cfg ops s = .ok s') : s'.mem.Freed b := by
  cases op with
  | construct w shape f =>
    simp only [POp.step] at h
    split at h
    · simp at h
    · simp only [Except.ok.injEq] at h
      subst h; exact hb.make _ _
  | load w input =>
    simp only [POp.step] at h
    split at h
    · simp at h
    · simp only [Except.ok.injEq] at h
      subst h; exact hb.make _ _
  | set w idx val =>
    simp only [POp.step] at h
    split at h
    · simp at h
    · split at h
      · simp at h
      · rename_i k _
        cases hp : s.mem.put (.tensor w) k val with
        | error e => rw [hp] at h; simp [Except.map] at h
        | ok m =>
          rw [hp] at h
          simp only [Except.map, Except.ok.injEq] at h
          subst h; exact hb.put hp
  | setU w idx val =>
    simp only [POp.step] at h
    split at h
    · simp at h
    · split at h
      · simp at h
      · rename_i k _
        cases hp : s.mem.put (.tensor w) k val with
        | error e => rw [hp] at h; simp [Except.map] at h
        | ok m =>
          rw [hp] at h
          simp only [Except.map, Except.ok.injEq] at h
          subst h; exact hb.put hp
  | write p val =>
    simp only [POp.step] at h
    cases hp : s.mem.write p val with
    | error e => rw [hp] at h; simp [Except.map] at h
    | ok m =>
      rw [hp] at h
      simp only [Except.map, Except.ok.injEq] at h
      subst h
      obtain ⟨y, h3, _, rfl⟩ := Vecs.write_ok hp
      exact hb.setBuf h3 _
  | copyFromPtr w p n =>
    simp only [POp.step] at h
    repeat' split at h
    all_goals first
      | simp at h; done
      | (simp only [Except.ok.injEq] at h; subst h; exact hb.fill _ _)
  | copyFrom w src =>
    simp only [POp.step] at h
    repeat' split at h
    all_goals first
      | simp at h; done
      | (simp only [Except.ok.injEq] at h; subst h; exact hb.fill _ _)
  | moveFrom w u =>
    simp only [POp.step] at h
    repeat' split at h
    all_goals first
      | simp at h; done
      | (simp only [Except.ok.injEq] at h; subst h; exact hb.move (.tensor w) (.vec u))
  | copyTensor dst src =>
    simp only [POp.step] at h
    split at h
    · simp at h
    · simp only [Except.ok.injEq] at h
      subst h; exact hb.make _ _
  | assign dst src =>
    simp only [POp.step] at h
    split at h
    · split at h
      · simp only [Except.ok.injEq] at h
        subst h; exact hb
      · rename_i x hd hx _
        simp only [Except.ok.injEq] at h
        subst h
        show (s.mem.assign (.tensor dst) x.values).Freed b
        rcases Vecs.assign_cases hw.mem (.tensor dst) x.values with ⟨c, y, h1, h2, h3, h4⟩ | ⟨h4, _⟩ <;> rw [h4]
        · exact hb.setBuf h2 _
        · exact hb.make _ _
    · simp at h
  | moveTensor dst src =>
    simp only [POp.step] at h
    split at h
    · simp at h
    · simp only [Except.ok.injEq] at h
      subst h; exact hb.move _ _
  | drop w =>
    simp only [POp.step, Except.ok.injEq] at h
    subst h
    exact ⟨by show (s.mem.destroy _).bufs b = none; rw [Vecs.destroy_bufs, hb.1]; simp,
      by show b < (s.mem.free _).next; rw [Vecs.free_next]; exact hb.2⟩
  | vec w l =>
    simp only [POp.step, Except.ok.injEq] at h
    subst h; exact hb.make _ _

theorem Vecs.Freed.dangling {m : Vecs α} {p : Ptr} (hw : m.WF) (h : m.Freed p.buf) :
    (∀ sl, m.own sl ≠ some (some p.buf)) ∧ m.read p = .error .ub ∧ ∀ x, m.write p x = .error .ub := by
  refine ⟨fun sl hs => ?_, by simp [Vecs.read, h.1], fun x => by simp [Vecs.write, h.1]⟩
  obtain ⟨y, hy⟩ := hw.live _ _ hs
  rw [h.1] at hy
  simp at hy

/-- A pointer that will never point to anything again, and whose use is undefined, whatever the program goes on to do. -/
def PState.Dangles (cfg : Cfg) (ops : ElemOps α) (s : PState α) (p : Ptr) : Prop :=
  ∀ rest s', POp.runAll cfg ops rest s = some s' →
    (∀ sl k, ¬ s'.PointsTo p sl k) ∧ s'.mem.read p = .error .ub ∧ ∀ x, (POp.write p x).step cfg ops s' = .error .ub

theorem PState.dangles_of_freed (cfg : Cfg) (ops : ElemOps α) {s : PState α} (hw : s.WF) {p : Ptr} (hf : s.mem.Freed p.buf) :
    s.Dangles cfg ops p := by
  intro rest s' h
  obtain ⟨h1, h2⟩ := POp.runAll_inv cfg ops (I := fun s => s.mem.Freed p.buf) rest
    (fun _ _ op _ hw hi hs => step_freed cfg ops hw op hi hs) hw hf h
  obtain ⟨h3, h4, h5⟩ := h2.dangling h1.mem
  exact ⟨fun sl k hp => h3 sl hp.1, h4, fun x => by simp [POp.step, h5 x, Except.map]⟩

/-- **C85** When a tensor is destroyed or a new one is made in its place, when `move_from` gives it other storage, and when
another tensor is moved to it, all pointers to its elements dangle from then on. -/
theorem C85_dangling (cfg : Cfg) (ops : ElemOps α) (prog : List (POp α)) (s s' : PState α)
    (h : POp.runAll cfg ops prog PState.start = some s) (p : Ptr) (v k : Nat) (hp : s.PointsTo p (.tensor v) k) (op : POp α)
    (hop : (∃ shape f, op = .construct v shape f) ∨ (∃ input, op = .load v input) ∨ (∃ w, op = .moveFrom v w) ∨
      (∃ src, op = .copyTensor v src) ∨ (∃ src, op = .moveTensor v src) ∨ op = .drop v)
    (hs : op.step cfg ops s = .ok s') : s'.Dangles cfg ops p := by
  have hw := POp.runAll_wf cfg ops prog h
  have hw' := POp.step_wf cfg ops hw op hs
  refine PState.dangles_of_freed cfg ops hw' ?_
  obtain ⟨h1, _⟩ := hp
  have hlt : p.buf < s.mem.next := by
    obtain ⟨y, hy⟩ := hw.mem.live _ _ h1
    exact hw.mem.below _ _ hy
  have hmake : ∀ l : List α, (s.mem.make (.tensor v) l).Freed p.buf := fun l =>
    ⟨by rw [Vecs.make_bufs _ _ _ hlt, if_pos h1], Nat.lt_of_lt_of_le hlt (Vecs.make_next _ _ _)⟩
  have hmove : ∀ r : Slot, (s.mem.move (.tensor v) r).Freed p.buf := fun r =>
    ⟨by rw [Vecs.move_bufs, if_pos h1], by rw [Vecs.move_next]; exact hlt⟩
  rcases hop with ⟨shape, f, rfl⟩ | ⟨input, rfl⟩ | ⟨w, rfl⟩ | ⟨src, rfl⟩ | ⟨src, rfl⟩ | rfl
  · simp only [POp.step] at hs
    split at hs
    · simp at hs
    · simp only [Except.ok.injEq] at hs
      subst hs; exact hmake _
  · simp only [POp.step] at hs
    split at hs
    · simp at hs
    · simp only [Except.ok.injEq] at hs
      subst hs; exact hmake _
  · simp only [POp.step] at hs
    split at hs
    · split at hs
      · simp at hs
      · simp only [Except.ok.injEq] at hs
        subst hs; exact hmove (.vec w)
    · simp at hs
  · simp only [POp.step] at hs
    split at hs
    · simp at hs
    · simp only [Except.ok.injEq] at hs
      subst hs; exact hmake _
  · simp only [POp.step] at hs
    split at hs
    · simp at hs
    · simp only [Except.ok.injEq] at hs
      subst hs; exact hmove _
  · simp only [POp.step, Except.ok.injEq] at hs
    subst hs
    exact ⟨by show (s.mem.destroy _).bufs _ = _; rw [Vecs.destroy_bufs, if_pos h1],
      by show _ < (s.mem.free _).next; rw [Vecs.free_next]; exact hlt⟩

/-- **C85** Copy assignment: if the target has room for the elements of the source (`values().capacity()`; at least if it has as
many elements), its storage stays, and pointers to its elements go on pointing to the same positions, as far as these still
exist. Otherwise all pointers to elements of the target dangle from then on. -/
theorem C85_assign (cfg : Cfg) (ops : ElemOps α) (prog : List (POp α)) (s s' : PState α)
    (h : POp.runAll cfg ops prog PState.start = some s) (p : Ptr) (v src k : Nat) (hp : s.PointsTo p (.tensor v) k)
    (hs : (POp.assign v src).step cfg ops s = .ok s') :
    ∃ x y b, s.tensor v = some x ∧ s.tensor src = some y ∧ s.mem.bufs p.buf = some b ∧ x.values.length ≤ b.cap ∧
      (y.values.length ≤ b.cap → (s'.PointsTo p (.tensor v) k ↔ k < y.values.length)) ∧
      (b.cap < y.values.length → s'.Dangles cfg ops p) := by
  have hw := POp.runAll_wf cfg ops prog h
  have hw' := POp.step_wf cfg ops hw _ hs
  obtain ⟨h1, h2, l, h3, h4⟩ := hp
  simp only [POp.step] at hs
  split at hs
  · rename_i x y hx hy
    have hl : l = x.values := by
      have := (PState.WF.tensor_some hx).2
      rw [h3] at this
      simpa using this
    obtain ⟨z, hz⟩ := hw.mem.live _ _ h1
    have hlt := hw.mem.below _ _ hz
    have hroom := hw.mem.room _ _ hz
    have hzl : z.elems = l := by
      have := Vecs.elems_of_own h1 hz
      rw [h3] at this
      simpa using this.symm
    rw [hzl, hl] at hroom
    refine ⟨x, y, z, hx, hy, hz, hroom, ?_⟩
    split at hs
    · rename_i he
      simp only [Except.ok.injEq] at hs
      subst hs
      have hxy : x = y := by rw [he, hy] at hx; simpa using hx.symm
      refine ⟨fun _ => ⟨fun _ => by rw [← hxy, ← hl]; exact h4, fun _ => ⟨h1, h2, l, h3, h4⟩⟩, fun hc => ?_⟩
      rw [← hxy] at hc
      omega
    · simp only [Except.ok.injEq] at hs
      subst hs
      rcases Vecs.assign_cases hw.mem (.tensor v) y.values with ⟨b, z', g1, g2, g3, g4⟩ | ⟨g4, g5⟩
      · rw [h1] at g1
        have hb : p.buf = b := by simpa using g1
        subst hb
        rw [hz] at g2
        simp only [Option.some.injEq] at g2
        subst g2
        refine ⟨fun _ => ⟨fun hq => ?_, fun hk => ⟨?_, h2, y.values, ?_, hk⟩⟩, fun hc => ?_⟩
        · obtain ⟨_, _, l', q3, q4⟩ := hq
          have : (s.mem.assign (.tensor v) y.values).elems (.tensor v) = some l' := q3
          rw [Vecs.assign_elems hw.mem, if_pos rfl] at this
          simp only [Option.some.injEq] at this
          rw [this]; exact q4
        · show (s.mem.assign _ _).own _ = _
          rw [g4]; exact h1
        · show (s.mem.assign _ _).elems _ = _
          rw [Vecs.assign_elems hw.mem, if_pos rfl]
        · omega
      · have hcap := g5 _ _ h1 hz
        refine ⟨fun hle => ?_, fun hc => PState.dangles_of_freed cfg ops hw' ?_⟩
        · omega
        · show (s.mem.assign (.tensor v) y.values).Freed _
          rw [g4]
          exact ⟨by rw [Vecs.make_bufs _ _ _ hlt, if_pos h1], Nat.lt_of_lt_of_le hlt (Vecs.make_next _ _ _)⟩
  · simp at hs

/-! ### Vectors, leaks -/

/-- **C85** The vectors of the program: `move_from` empties the one it is given, nothing but the program itself changes the others. -/
theorem C85_vectors (cfg : Cfg) (ops : ElemOps α) (prog : List (POp α)) (s s' : PState α)
    (h : POp.runAll cfg ops prog PState.start = some s) (op : POp α) (hop : ∀ p val, op ≠ .write p val)
    (hs : op.step cfg ops s = .ok s') (w : Nat) :
    s'.mem.elems (.vec w) = op.onVectors s w := by
  have hw := POp.runAll_wf cfg ops prog h
  have hput : ∀ {v k : Nat} {x : α} {m : Vecs α}, s.mem.put (.tensor v) k x = .ok m → m.elems (.vec w) = s.mem.elems (.vec w) := by
    intro v k x m hp
    obtain ⟨b, h1, h2⟩ := Vecs.put_ok hp
    rw [write_elems hw.mem h2, if_neg]
    intro hc
    simpa using hw.mem.uniq _ _ _ h1 hc
  cases op with
  | construct v shape f =>
    simp only [POp.step] at hs
    split at hs
    · simp at hs
    · simp only [Except.ok.injEq] at hs
      subst hs
      show (s.mem.make _ _).elems _ = s.mem.elems (.vec w)
      rw [Vecs.make_elems hw.mem, if_neg (by simp)]
  | load v input =>
    simp only [POp.step] at hs
    split at hs
    · simp at hs
    · simp only [Except.ok.injEq] at hs
      subst hs
      show (s.mem.make _ _).elems _ = s.mem.elems (.vec w)
      rw [Vecs.make_elems hw.mem, if_neg (by simp)]
  | set v idx val =>
    simp only [POp.step] at hs
    split at hs
    · simp at hs
    · split at hs
      · simp at hs
      · rename_i k _
        cases hp : s.mem.put (.tensor v) k val with
        | error e => rw [hp] at hs; simp [Except.map] at hs
        | ok m =>
          rw [hp] at hs
          simp only [Except.map, Except.ok.injEq] at hs
          subst hs; exact hput hp
  | setU v idx val =>
    simp only [POp.step] at hs
    split at hs
    · simp at hs
    · split at hs
      · simp at hs
      · rename_i k _
        cases hp : s.mem.put (.tensor v) k val with
        | error e => rw [hp] at hs; simp [Except.map] at hs
        | ok m =>
          rw [hp] at hs
          simp only [Except.map, Except.ok.injEq] at hs
          subst hs; exact hput hp
  | write p val => exact absurd rfl (hop p val)
  | copyFromPtr v p n =>
    simp only [POp.step] at hs
    split at hs
    · simp at hs
    · rename_i x hx
      split at hs
      · simp at hs
      · rename_i hn
        split at hs
        · simp at hs
        · rename_i hr
          simp only [Except.ok.injEq] at hs
          subst hs
          show (s.mem.fill _ _).elems _ = s.mem.elems (.vec w)
          rw [Vecs.fill_elems hw.mem _ _ _ _ (PState.WF.tensor_some hx).2, if_neg (by simp)]
          rw [List.length_take]
          have : n = x.values.length := by simpa using hn
          omega
  | copyFrom v src =>
    simp only [POp.step] at hs
    split at hs
    · rename_i x l hx hl
      split at hs
      · simp at hs
      · rename_i hn
        simp only [Except.ok.injEq] at hs
        subst hs
        show (s.mem.fill _ _).elems _ = s.mem.elems (.vec w)
        rw [Vecs.fill_elems hw.mem _ _ _ _ (PState.WF.tensor_some hx).2 (by simpa using hn), if_neg (by simp)]
    · simp at hs
  | moveFrom v u =>
    simp only [POp.step] at hs
    split at hs
    · split at hs
      · simp at hs
      · simp only [Except.ok.injEq] at hs
        subst hs
        show (s.mem.move (Slot.tensor v) (Slot.vec u)).elems _ = _
        rw [Vecs.move_elems hw.mem]
        by_cases g : w = u
        · simp [POp.onVectors, g]
        · simp [POp.onVectors, g]
    · simp at hs
  | copyTensor dst src =>
    simp only [POp.step] at hs
    split at hs
    · simp at hs
    · simp only [Except.ok.injEq] at hs
      subst hs
      show (s.mem.make _ _).elems _ = s.mem.elems (.vec w)
      rw [Vecs.make_elems hw.mem, if_neg (by simp)]
  | assign dst src =>
    simp only [POp.step] at hs
    split at hs
    · split at hs
      · simp only [Except.ok.injEq] at hs
        subst hs; rfl
      · simp only [Except.ok.injEq] at hs
        subst hs
        show (s.mem.assign _ _).elems _ = s.mem.elems (.vec w)
        rw [Vecs.assign_elems hw.mem, if_neg (by simp)]
    · simp at hs
  | moveTensor dst src =>
    simp only [POp.step] at hs
    split at hs
    · simp at hs
    · simp only [Except.ok.injEq] at hs
      subst hs
      show (s.mem.move (Slot.tensor dst) (Slot.tensor src)).elems _ = s.mem.elems (.vec w)
      rw [Vecs.move_elems hw.mem, if_neg (by simp), if_neg (by simp)]
  | drop v =>
    simp only [POp.step, Except.ok.injEq] at hs
    subst hs
    show (s.mem.destroy _).elems _ = s.mem.elems (.vec w)
    rw [Vecs.destroy_elems hw.mem, if_neg (by simp)]
  | vec u l =>
    simp only [POp.step, Except.ok.injEq] at hs
    subst hs
    show (s.mem.make _ _).elems _ = _
    rw [Vecs.make_elems hw.mem]
    by_cases g : w = u
    · simp [POp.onVectors, g]
    · simp [POp.onVectors, g]

/-- **C85** No history leaks storage: every buffer that was not freed belongs to exactly one tensor or vector that still exists. -/
theorem C85_no_leak (cfg : Cfg) (ops : ElemOps α) (prog : List (POp α)) (s : PState α)
    (h : POp.runAll cfg ops prog PState.start = some s) (b : Nat) (x : Storage α) (hb : s.mem.bufs b = some x) :
    (∃ v t, s.tensor v = some t ∧ s.mem.own (.tensor v) = some (some b) ∧ t.values = x.elems ∧
      ∀ sl, s.mem.own sl = some (some b) → sl = .tensor v) ∨
    ∃ w, s.mem.elems (.vec w) = some x.elems ∧ s.mem.own (.vec w) = some (some b) ∧
      ∀ sl, s.mem.own sl = some (some b) → sl = .vec w := by
  have hw := POp.runAll_wf cfg ops prog h
  obtain ⟨sl, hs⟩ := hw.mem.owned b x hb
  have hu : ∀ sl', s.mem.own sl' = some (some b) → sl' = sl := fun sl' h' => hw.mem.uniq _ _ _ h' hs
  cases sl with
  | tensor v =>
    left
    have := hw.objs v
    rw [hs] at this
    obtain ⟨i, hi⟩ := Option.isSome_iff_exists.mp this
    exact ⟨v, ⟨i.shape, i.ravelStrides, i.fortranOrder, i.dtype, x.elems⟩, by
      unfold PState.tensor; rw [hi, Vecs.elems_of_own hs hb], hs, rfl, hu⟩
  | vec w => exact .inr ⟨w, Vecs.elems_of_own hs hb, hs, hu⟩

/-! ### Examples -/

/-- Two numbers, a pointer to the second, a write through it, and a move: the pointer now points into the target. -/
example : (POp.runAll ⟨false, true, false⟩ (fixedOps .uint8)
      [.construct 0 [2] false, .copyTensor 1 0, .write ⟨0, 1⟩ [7], .moveTensor 2 0, .write ⟨0, 0⟩ [9]] PState.start).map
        (fun s => ((s.tensor 0).map (·.values), (s.tensor 1).map (·.values), (s.tensor 2).map (·.values))) =
    some (some [], some [[0], [0]], some [[9], [7]]) := by
  decide +kernel

/-- `C85_stable` and `C85_read_write` at work. -/
example (s s' : PState Elem)
    (h : POp.runAll ⟨false, true, false⟩ (fixedOps .uint8) [.construct 0 [2] false] PState.start = some s)
    (h' : POp.runAll ⟨false, true, false⟩ (fixedOps .uint8) [.copyTensor 1 0, .set 0 [1] [7], .drop 1] s = some s') :
    ∃ x, s'.tensor 0 = some x ∧ s'.mem.read ⟨0, 1⟩ = x.at? 1 := by
  have hp : s.PointsTo ⟨0, 1⟩ (.tensor 0) 1 := by
    have : POp.runAll ⟨false, true, false⟩ (fixedOps .uint8) [.construct 0 [2] false] PState.start = some s → s.PointsTo ⟨0, 1⟩ (.tensor 0) 1 := by
      intro h
      simp only [POp.runAll, POp.step, Tensor.new] at h
      rw [if_neg (by decide)] at h
      simp only [Option.some.injEq] at h
      subst h
      exact ⟨rfl, rfl, [[0], [0]], by decide +kernel, by decide⟩
    exact this h
  have hs := C85_stable _ _ _ _ s s' h h' _ 0 1 hp (by simp [POp.Renews])
  have hall : POp.runAll ⟨false, true, false⟩ (fixedOps .uint8)
      ([.construct 0 [2] false] ++ [.copyTensor 1 0, .set 0 [1] [7], .drop 1]) PState.start = some s' := by
    rw [POp.runAll_append, h]; exact h'
  obtain ⟨x, h1, _, h2, _⟩ := C85_read_write _ _ _ s' hall _ 0 1 hs
  exact ⟨x, h1, h2⟩

/-- After an assignment of more elements an old pointer dangles; after one of fewer it does not. -/
example : POp.runAll ⟨false, true, false⟩ (fixedOps .uint8)
      [.construct 0 [1] false, .construct 1 [3] false, .assign 0 1, .write ⟨0, 0⟩ [7]] PState.start |>.isNone := by
  decide +kernel
example : (POp.runAll ⟨false, true, false⟩ (fixedOps .uint8)
      [.construct 0 [1] false, .construct 1 [3] false, .assign 1 0, .write ⟨1, 0⟩ [7]] PState.start).map
        (fun s => (s.tensor 1).map (·.values)) = some (some [[7]]) := by
  decide +kernel

/-- A vector is handed to a tensor without copying; `copy_from` of a tensor's own values changes nothing. -/
example : (POp.runAll ⟨false, true, false⟩ (fixedOps .uint8)
      [.construct 0 [2] false, .vec 0 [[1], [2]], .moveFrom 0 0, .write ⟨1, 0⟩ [7], .copyFrom 0 (.tensor 0), .copyFromPtr 0 ⟨1, 0⟩ 2]
      PState.start).map (fun s => ((s.tensor 0).map (·.values), s.mem.elems (.vec 0), (s.mem.bufs 0).isSome)) =
    some (some [[7], [2]], some [], false) := by
  decide +kernel

end Npy
