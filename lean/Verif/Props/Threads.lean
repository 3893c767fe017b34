import Verif.Model.Threads
import Mathlib.Tactic.Common
/-!
# Parsing headers from several threads (C50)
-/

namespace Npy

/-! ### A program on its own tokens -/

/-- Running a program with a private buffer that holds the token stored last. `none`: it copies more than that token. -/
def Prog.own {α : Type} : Prog α → Bytes → Option (α × Bytes)
  | .ret a, last => some (a, last)
  | .fill t k, _ => k.own t
  | .copy n k, last => if n ≤ last.length then (k (last.take n)).own last else none

theorem Prog.own_bind {α β : Type} (p : Prog α) (f : α → Prog β) (last : Bytes) :
    (p.bind f).own last = match p.own last with
      | some (a, last') => (f a).own last'
      | none => none := by
  induction p generalizing last with
  | ret a => rfl
  | fill t k ih => exact ih t
  | copy n k ih =>
    simp only [Prog.bind, Prog.own]
    split
    · exact ih _ _
    · rfl

/-- `xb` on its own tokens does what `x` does, in a release build or when `x` returns. -/
def Agrees {α : Type} (cfg : Cfg) (xb : BM α) (x : IM α) : Prop :=
  ∀ s last, cfg.ndebug = true ∨ (∃ a, (x s).1 = .ok a) → ∃ last', (xb.run s).own last = some (x s, last')

theorem Agrees.bind {α β : Type} {cfg : Cfg} {xb : BM α} {x : IM α} {fb : α → BM β} {f : α → IM β}
    (hx : Agrees cfg xb x) (hf : ∀ a, Agrees cfg (fb a) (f a)) : Agrees cfg (xb >>= fb) (x >>= f) := by
  intro s last h
  have h1 : cfg.ndebug = true ∨ ∃ a, (x s).1 = .ok a := by
    rcases h with h | ⟨b, h⟩
    · exact .inl h
    · right
      rw [SM.bind_apply] at h
      match hx : x s with
      | (.ok a, s') => exact ⟨a, rfl⟩
      | (.error e, s') => rw [hx] at h; simp at h
  obtain ⟨l1, e1⟩ := hx s last h1
  show ∃ last', ((xb.run s).bind _).own last = _
  rw [Prog.own_bind, e1, SM.bind_apply]
  match hxs : x s with
  | (.ok a, s') =>
    refine hf a s' l1 ?_
    rcases h with h | ⟨b, h⟩
    · exact .inl h
    · right
      rw [SM.bind_apply, hxs] at h
      exact ⟨b, h⟩
  | (.error e, s') => exact ⟨l1, rfl⟩

theorem Agrees.lift {α : Type} (cfg : Cfg) (x : IM α) : Agrees cfg (BM.lift x) x := fun _ last _ => ⟨last, rfl⟩
theorem Agrees.pure {α : Type} (cfg : Cfg) (a : α) : Agrees cfg (Pure.pure a : BM α) (Pure.pure a : IM α) := fun _ last _ => ⟨last, rfl⟩
theorem Agrees.ite {α : Type} {cfg : Cfg} {c : Prop} [Decidable c] {xb yb : BM α} {x y : IM α} (hx : Agrees cfg xb x)
    (hy : Agrees cfg yb y) : Agrees cfg (if c then xb else yb) (if c then x else y) := by split <;> assumption

theorem BM.bind_run {α β : Type} (x : BM α) (f : α → BM β) (s : IStream) : (x >>= f).run s = (x.run s).bind fun
  | (.ok a, s') => (f a).run s'
  | (.error e, s') => .ret (.error e, s') := rfl

theorem readLit_agrees (cfg : Cfg) (expected : Bytes) : Agrees cfg (readLitB cfg expected) (readLit cfg expected) := by
  intro s last h
  have key : (readLitB cfg expected).run s = match IStream.read expected.length s with
      | (.ok got, s') => .fill got (if cfg.ndebug then .ret (.ok (), s')
        else .copy expected.length fun actual => if actual = expected then .ret (.ok (), s') else .ret (.error .abort, s'))
      | (.error e, s') => .ret (.error e, s') := by
    unfold readLitB
    rw [BM.bind_run]
    simp only [BM.lift, Prog.bind]
    match IStream.read expected.length s with
    | (.error e, s') => rfl
    | (.ok got, s') =>
      show Prog.fill got _ = _
      congr 1
      cases cfg.ndebug
      · show Prog.copy _ _ = _
        congr 1
        funext actual
        show ((if actual = expected then (Pure.pure () : BM Unit) else BM.lift (SM.fail .abort)).run s') = _
        split <;> rfl
      · rfl
  rw [key]
  unfold readLit at h ⊢
  rw [SM.bind_apply] at h ⊢
  match hr : IStream.read expected.length s with
  | (.error e, s') => exact ⟨last, rfl⟩
  | (.ok got, s') =>
    rw [hr] at h
    simp only [Prog.own] at h ⊢
    cases hn : cfg.ndebug with
    | true => exact ⟨got, rfl⟩
    | false =>
      rw [hn] at h
      simp only [Bool.false_eq_true, if_false, false_or] at h ⊢
      by_cases hg : got = expected
      · subst hg
        refine ⟨got, ?_⟩
        simp [Prog.own]
      · simp [hg] at h

theorem readTo_agrees (cfg : Cfg) (delim : Byte) : Agrees cfg (readToB delim) (readTo delim) := by
  have body : Agrees cfg (do
      let token ← BM.lift (IStream.getUntil (BUFFER_SIZE - 1) delim)
      BM.fill (token ++ [0])
      BM.copy token.length : BM Bytes) (IStream.getUntil (BUFFER_SIZE - 1) delim) := by
    intro s last _
    rw [BM.bind_run]
    simp only [BM.lift, Prog.bind]
    match IStream.getUntil (BUFFER_SIZE - 1) delim s with
    | (.error e, s') => exact ⟨last, rfl⟩
    | (.ok token, s') =>
      refine ⟨token ++ [0], ?_⟩
      show (Prog.fill (token ++ [0]) (Prog.copy token.length fun bs => Prog.ret ((Except.ok bs : Except Err Bytes), s'))).own last = _
      simp [Prog.own]
  unfold readToB readTo
  refine (Agrees.lift cfg _).bind fun a => ?_
  match a with
  | some c => exact .ite (.pure cfg _) body
  | none => exact body

theorem readString_agrees (cfg : Cfg) : Agrees cfg (readStringB cfg) (readString cfg) :=
  (Agrees.lift cfg _).bind fun _ => (readTo_agrees cfg 39).bind fun _ => (Agrees.lift cfg _).bind fun _ => .pure cfg _

theorem readBool_agrees (cfg : Cfg) : Agrees cfg (readBoolB cfg) (readBool cfg) := by
  unfold readBoolB readBool
  refine (Agrees.lift cfg _).bind fun a => ?_
  refine .ite ((readLit_agrees cfg _).bind fun _ => .pure cfg _) ?_
  refine (Agrees.lift cfg _).bind fun a => ?_
  exact .ite ((readLit_agrees cfg _).bind fun _ => .pure cfg _) (.lift cfg _)

theorem readShape_agrees (cfg : Cfg) : Agrees cfg (readShapeB cfg) (readShape cfg) :=
  (Agrees.lift cfg _).bind fun _ => (readTo_agrees cfg 41).bind fun _ => (Agrees.lift cfg _).bind fun _ => .lift cfg _

theorem parseValue_agrees (cfg : Cfg) (h : HeaderInfo) (key : Bytes) : Agrees cfg (parseValueB cfg h key) (parseValue cfg h key) := by
  unfold parseValueB parseValue
  refine .ite ((readString_agrees cfg).bind fun _ => .lift cfg _) ?_
  refine .ite ((readBool_agrees cfg).bind fun _ => .pure cfg _) ?_
  exact .ite ((readShape_agrees cfg).bind fun _ => .pure cfg _) (.lift cfg _)

theorem parseItem_agrees (cfg : Cfg) (h : HeaderInfo) : Agrees cfg (parseItemB cfg h) (parseItem cfg h) := by
  unfold parseItemB parseItem
  refine (Agrees.lift cfg _).bind fun _ => (readString_agrees cfg).bind fun key => (Agrees.lift cfg _).bind fun _ => ?_
  refine (Agrees.lift cfg _).bind fun _ => (Agrees.lift cfg _).bind fun _ => (parseValue_agrees cfg h key).bind fun _ => ?_
  exact (Agrees.lift cfg _).bind fun _ => (Agrees.lift cfg _).bind fun _ => .pure cfg _

theorem parseItems_agrees (cfg : Cfg) (fuel : Nat) (h : HeaderInfo) : Agrees cfg (parseItemsB cfg fuel h) (parseItems cfg fuel h) := by
  induction fuel generalizing h with
  | zero => exact .lift cfg _
  | succ fuel ih =>
    unfold parseItemsB parseItems
    refine (Agrees.lift cfg _).bind fun _ => ?_
    exact .ite (.pure cfg _) ((parseItem_agrees cfg h).bind fun _ => ih _)

/-- On its own tokens the thread's program computes `parseHeader`. -/
theorem headerProg_own (cfg : Cfg) (dict last : Bytes) (h : cfg.ndebug = true ∨ ∃ i, parseHeader cfg dict = .ok i) :
    ∃ last', (headerProg cfg dict).own last = some (parseHeader cfg dict, last') := by
  have ha : Agrees cfg (parseHeaderB cfg dict) (do
      readChar cfg 123
      let h ← parseItems cfg (dict.length + 1) HeaderInfo.uninit
      readChar cfg 125
      pure h : IM HeaderInfo) := by
    unfold parseHeaderB
    refine (Agrees.lift cfg _).bind fun _ => (parseItems_agrees cfg _ _).bind fun _ => ?_
    exact (Agrees.lift cfg _).bind fun _ => .pure cfg _
  obtain ⟨l, e⟩ := ha (IStream.ofBytes dict) last h
  refine ⟨l, ?_⟩
  unfold headerProg
  rw [Prog.own_bind, e]
  rfl

/-! ### Schedules -/

theorem Buffer.copy_of_holds {b : Buffer} {t : Bytes} (h : ∀ i, i < t.length → b i = t.getD i 0) {n : Nat} (hn : n ≤ t.length) :
    b.copy n = t.take n := by
  apply List.ext_getElem
  · simp [Buffer.copy, hn]
  · intro i h1 h2
    simp only [Buffer.copy, List.length_map, List.length_range] at h1
    simp only [Buffer.copy, List.getElem_map, List.getElem_range, List.getElem_take]
    rw [h i (by omega), List.getD_eq_getElem?_getD, List.getElem?_eq_getElem (by omega)]
    rfl

/-- Thread `i` is on its way to `r`: on its own tokens it ends with `r`, and if it stored last, the buffer holds its token. -/
structure OnWay {α : Type} (m : Machine α) (owner : Option Nat) (i : Nat) (r : α) (last : Bytes) : Prop where
  own : ∃ l, (m.thread i).own last = some (r, l)
  holds : owner = some i → ∀ k, k < last.length → m.buffer k = last.getD k 0

theorem OnWay.step {α : Type} {m : Machine α} {owner : Option Nat} {i : Nat} {r : α} {last : Bytes} (h : OnWay m owner i r last)
    (j : Nat) (hu : m.copies j = true → owner = some j) :
    ∃ last', OnWay (m.step j) (if m.fills j then some j else owner) i r last' := by
  obtain ⟨⟨l, ho⟩, hh⟩ := h
  by_cases hj : j = i
  · subst hj
    unfold Machine.step Machine.fills
    unfold Machine.copies at hu
    match ht : m.thread j with
    | .ret a => exact ⟨last, ⟨l, ho⟩, hh⟩
    | .fill t k =>
      rw [ht] at ho
      refine ⟨t, ⟨l, by simpa [Prog.own] using ho⟩, fun _ k hk => ?_⟩
      simp only [Buffer.fill]
      rw [List.getD_eq_getElem?_getD, List.getD_eq_getElem?_getD, List.getElem?_eq_getElem hk]
      rfl
    | .copy n k =>
      rw [ht] at ho hu
      have ow := hu rfl
      simp only [Prog.own] at ho
      split at ho
      · rename_i hn
        refine ⟨last, ⟨l, ?_⟩, fun _ => hh ow⟩
        simp only [if_true, Buffer.copy_of_holds (hh ow) hn]
        exact ho
      · simp at ho
  · have hij : ¬ i = j := fun h => hj h.symm
    refine ⟨last, ?_⟩
    unfold Machine.step Machine.fills
    match ht : m.thread j with
    | .ret a => exact ⟨⟨l, ho⟩, hh⟩
    | .fill t k =>
      refine ⟨⟨l, by simp only [hij, if_false]; exact ho⟩, fun e => ?_⟩
      simp only [if_true, Option.some.injEq] at e
      exact absurd e hj
    | .copy n k => exact ⟨⟨l, by simp only [hij, if_false]; exact ho⟩, hh⟩

theorem OnWay.after {α : Type} {m : Machine α} {owner : Option Nat} {i : Nat} {r : α} {last : Bytes} (h : OnWay m owner i r last)
    (sched : List Nat) (hu : m.Undisturbed owner sched) :
    ∃ last' owner', OnWay (m.after sched) owner' i r last' := by
  induction sched generalizing m owner last with
  | nil => exact ⟨last, owner, h⟩
  | cons j sched ih =>
    obtain ⟨h1, h2⟩ := hu
    obtain ⟨l, h3⟩ := h.step j h1
    exact ih h3 h2

/-- Number of steps of a program on its own tokens. -/
def Prog.cost {α : Type} : Prog α → Bytes → Nat
  | .ret _, _ => 0
  | .fill t k, _ => k.cost t + 1
  | .copy n k, last => (k (last.take n)).cost last + 1

/-- The steps still to be made shrink with each step of the thread. -/
theorem OnWay.step_cost {α : Type} {m : Machine α} {owner : Option Nat} {i : Nat} {r : α} {last : Bytes} (h : OnWay m owner i r last)
    (j : Nat) (hu : m.copies j = true → owner = some j) :
    ∃ last', OnWay (m.step j) (if m.fills j then some j else owner) i r last' ∧
      ((m.step j).thread i).cost last' ≤ (m.thread i).cost last - (if j = i then 1 else 0) := by
  obtain ⟨⟨l, ho⟩, hh⟩ := h
  by_cases hj : j = i
  · subst hj
    unfold Machine.step Machine.fills
    unfold Machine.copies at hu
    match ht : m.thread j with
    | .ret a => exact ⟨last, ⟨⟨l, ho⟩, hh⟩, by simp [ht, Prog.cost]⟩
    | .fill t k =>
      rw [ht] at ho
      refine ⟨t, ⟨⟨l, by simpa [Prog.own] using ho⟩, fun _ k hk => ?_⟩, by simp [Prog.cost]⟩
      simp only [Buffer.fill]
      rw [List.getD_eq_getElem?_getD, List.getD_eq_getElem?_getD, List.getElem?_eq_getElem hk]
      rfl
    | .copy n k =>
      rw [ht] at ho hu
      have ow := hu rfl
      simp only [Prog.own] at ho
      split at ho
      · rename_i hn
        refine ⟨last, ⟨⟨l, ?_⟩, fun _ => hh ow⟩, ?_⟩
        · simp only [if_true, Buffer.copy_of_holds (hh ow) hn]
          exact ho
        · simp [Prog.cost, Buffer.copy_of_holds (hh ow) hn]
      · simp at ho
  · have hij : ¬ i = j := fun h => hj h.symm
    refine ⟨last, ?_⟩
    unfold Machine.step Machine.fills
    match ht : m.thread j with
    | .ret a => exact ⟨⟨⟨l, ho⟩, hh⟩, by simp [hj]⟩
    | .fill t k =>
      refine ⟨⟨⟨l, by simp only [hij, if_false]; exact ho⟩, fun e => ?_⟩, by simp [hj, hij]⟩
      simp only [if_true, Option.some.injEq] at e
      exact absurd e hj
    | .copy n k => exact ⟨⟨⟨l, by simp only [hij, if_false]; exact ho⟩, hh⟩, by simp [hj, hij]⟩

theorem OnWay.after_cost {α : Type} {m : Machine α} {owner : Option Nat} {i : Nat} {r : α} {last : Bytes} (h : OnWay m owner i r last)
    (sched : List Nat) (hu : m.Undisturbed owner sched) :
    ∃ last' owner', OnWay (m.after sched) owner' i r last' ∧
      ((m.after sched).thread i).cost last' ≤ (m.thread i).cost last - sched.count i := by
  induction sched generalizing m owner last with
  | nil => exact ⟨last, owner, h, by simp [Machine.after]⟩
  | cons j sched ih =>
    obtain ⟨h1, h2⟩ := hu
    obtain ⟨l, h3, c3⟩ := h.step_cost j h1
    obtain ⟨l', o', h4, c4⟩ := ih h3 h2
    refine ⟨l', o', h4, ?_⟩
    show ((Machine.after (m.step j) sched).thread i).cost l' ≤ _
    rw [List.count_cons]
    by_cases hj : j = i
    · subst hj; simp only [if_true, beq_self_eq_true] at c3 ⊢; omega
    · simp only [hj, if_false, beq_iff_eq] at c3 ⊢; omega

/-- **C50** (what does hold). Any number of threads parse headers, one each; the schedule is arbitrary except that nobody
stores into the shared buffer between a thread's storing and copying of a token. Then every thread that has finished
has the result of parsing its own dictionary, and every thread finishes after finitely many of its own steps. Release builds; in
a debug build, for dictionaries that parse. -/
theorem C50_undisturbed (cfg : Cfg) (dicts : Nat → Bytes) (i : Nat)
    (hi : cfg.ndebug = true ∨ ∃ info, parseHeader cfg (dicts i) = .ok info) :
    ∃ steps, ∀ sched, (Machine.parsers cfg dicts).Undisturbed none sched →
      (∀ r, ((Machine.parsers cfg dicts).after sched).result i = some r → r = parseHeader cfg (dicts i)) ∧
      (steps ≤ sched.count i → ((Machine.parsers cfg dicts).after sched).result i = some (parseHeader cfg (dicts i))) := by
  refine ⟨(headerProg cfg (dicts i)).cost [], fun sched hu => ?_⟩
  have h0 : OnWay (Machine.parsers cfg dicts) none i (parseHeader cfg (dicts i)) [] :=
    ⟨headerProg_own cfg (dicts i) [] hi, by simp⟩
  obtain ⟨l, o, ⟨⟨l', h1⟩, -⟩, hc⟩ := h0.after_cost sched hu
  unfold Machine.result
  match ht : ((Machine.parsers cfg dicts).after sched).thread i with
  | .ret a =>
    rw [ht] at h1
    simp only [Prog.own, Option.some.injEq, Prod.mk.injEq] at h1
    rw [h1.1]
    exact ⟨fun r hr => by simpa using hr.symm, fun _ => rfl⟩
  | .fill t k =>
    refine ⟨by simp, fun hs => ?_⟩
    rw [ht] at hc
    simp only [Prog.cost] at hc
    have : (Machine.parsers cfg dicts).thread i = headerProg cfg (dicts i) := rfl
    rw [this] at hc
    omega
  | .copy n k =>
    refine ⟨by simp, fun hs => ?_⟩
    rw [ht] at hc
    simp only [Prog.cost] at hc
    have : (Machine.parsers cfg dicts).thread i = headerProg cfg (dicts i) := rfl
    rw [this] at hc
    omega

/-! ### A schedule that mixes headers up -/

/-- Thread 0 parses a header of floats, thread 1 one of 64-bit integers (thread 2 and so on: nothing). -/
def exDicts : Nat → Bytes
  | 0 => b!"{'descr': '<f4', 'fortran_order': False, 'shape': (3,), }"
  | 1 => b!"{'descr': '<i8', 'fortran_order': False, 'shape': (5,), }"
  | _ => []

/-- Thread 1 stores its dtype between thread 0's storing and copying of its own. -/
def exSchedule : List Nat := [0, 0, 1, 1, 0, 1, 0, 1] ++ List.replicate 7 0 ++ List.replicate 7 1

/-- Thread 1's header alone, then thread 0's. -/
def exSerial : List Nat := List.replicate 11 1 ++ List.replicate 11 0

/-- **C50** is false in general: with this schedule both threads finish without an exception, and thread 0 is told that
its floats are 64-bit integers. -/
theorem C50_false : ∃ sched info,
    ((Machine.parsers ⟨false, true, false⟩ exDicts).after sched).result 0 = some (.ok info) ∧
    ((Machine.parsers ⟨false, true, false⟩ exDicts).after sched).result 1 = some (parseHeader ⟨false, true, false⟩ (exDicts 1)) ∧
    info.dtype = some .int64 ∧
    (parseHeader ⟨false, true, false⟩ (exDicts 0)).map (·.dtype) = .ok (some .float32) :=
  ⟨exSchedule, { dtype := some .int64, endianness := some .little, fortranOrder := some false, shape := [3], maxElementLength := some 0 },
    by decide +kernel, by decide +kernel, rfl, by decide +kernel⟩

instance Machine.decUndisturbed {α : Type} : ∀ (m : Machine α) (o : Option Nat) (s : List Nat), Decidable (m.Undisturbed o s)
  | _, _, [] => .isTrue trivial
  | m, o, i :: rest =>
    have := Machine.decUndisturbed (m.step i) (if m.fills i then some i else o) rest
    inferInstanceAs (Decidable (_ ∧ _))

example : (Machine.parsers ⟨false, true, false⟩ exDicts).Undisturbed none exSerial ∧
    ((Machine.parsers ⟨false, true, false⟩ exDicts).after exSerial).result 0 = some (parseHeader ⟨false, true, false⟩ (exDicts 0)) ∧
    ((Machine.parsers ⟨false, true, false⟩ exDicts).after exSerial).result 1 = some (parseHeader ⟨false, true, false⟩ (exDicts 1)) := by
  have hu : (Machine.parsers ⟨false, true, false⟩ exDicts).Undisturbed none exSerial := by decide +kernel
  refine ⟨hu, ?_, ?_⟩ <;> decide +kernel

end Npy
