import Verif.Model.Pointers
/-!
# The heap of tensors: invariant, contents
-/

namespace Npy
namespace Vecs

variable {α : Type}

/-- Each buffer has exactly one owner, each owner's buffer is alive, and it has room for its elements. -/
structure WF (m : Vecs α) : Prop where
  below : ∀ b x, m.bufs b = some x → b < m.next
  live : ∀ s b, m.own s = some (some b) → ∃ x, m.bufs b = some x
  uniq : ∀ s r b, m.own s = some (some b) → m.own r = some (some b) → s = r
  owned : ∀ b x, m.bufs b = some x → ∃ s, m.own s = some (some b)
  room : ∀ b x, m.bufs b = some x → x.elems.length ≤ x.cap

theorem elems_of_own {m : Vecs α} {s : Slot} {b : Nat} {x : Storage α} (h : m.own s = some (some b)) (hx : m.bufs b = some x) :
    m.elems s = some x.elems := by simp [elems, h, hx]

theorem WF.elems_isSome {m : Vecs α} (hw : m.WF) (s : Slot) : (m.elems s).isSome = (m.own s).isSome := by
  unfold elems
  cases h : m.own s with
  | none => rfl
  | some o => cases o with
    | none => rfl
    | some b => obtain ⟨x, hx⟩ := hw.live s b h; simp [hx]

/-- Elements depend on the owned buffer only. -/
theorem elems_congr {m m' : Vecs α} {s : Slot} (ho : m'.own s = m.own s) (hb : ∀ b, m.own s = some (some b) → m'.bufs b = m.bufs b) :
    m'.elems s = m.elems s := by
  unfold elems
  rw [ho]
  cases h : m.own s with
  | none => rfl
  | some o => cases o with
    | none => rfl
    | some b => simp [hb b h]

/-! ### Freeing -/

theorem free_own (m : Vecs α) (s : Slot) : (m.free s).own = m.own := by unfold free; split <;> rfl
theorem free_next (m : Vecs α) (s : Slot) : (m.free s).next = m.next := by unfold free; split <;> rfl

theorem free_bufs (m : Vecs α) (s : Slot) (b : Nat) : (m.free s).bufs b = if m.own s = some (some b) then none else m.bufs b := by
  unfold free
  split
  · rename_i c hc
    simp only [setBuf, hc, Option.some.injEq]
    by_cases h : b = c
    · simp [h]
    · simp [h, Ne.symm h]
  · rename_i hn
    rw [if_neg (fun h => hn b h)]

theorem WF.free_other {m : Vecs α} (hw : m.WF) {s r : Slot} (h : r ≠ s) {b : Nat} (hb : m.own r = some (some b)) :
    (m.free s).bufs b = m.bufs b := by
  rw [free_bufs, if_neg]
  exact fun hs => h (hw.uniq r s b hb hs)

/-! ### Allocating -/

theorem alloc_own (m : Vecs α) (l : List α) : (m.alloc l).1.own = m.own := by unfold alloc; split <;> rfl

theorem alloc_cases (m : Vecs α) (l : List α) : (l = [] ∧ m.alloc l = (m, none)) ∨
    (l ≠ [] ∧ m.alloc l = ({ m with next := m.next + 1, bufs := fun c => if c = m.next then some ⟨l.length, l⟩ else m.bufs c }, some m.next)) := by
  unfold alloc
  cases l <;> simp

/-! ### New vectors -/

theorem make_own (m : Vecs α) (s r : Slot) (l : List α) (h : r ≠ s) : (m.make s l).own r = m.own r := by
  simp [make, setOwn, h, free_own, alloc_own]

theorem make_elems {m : Vecs α} (hw : m.WF) (s r : Slot) (l : List α) :
    (m.make s l).elems r = if r = s then some l else m.elems r := by
  by_cases h : r = s
  · subst h
    rw [if_pos rfl]
    rcases alloc_cases m l with ⟨h1, h2⟩ | ⟨h1, h2⟩
    · simp only [make, h2, elems, setOwn, if_true]; rw [h1]
    · have : ((m.alloc l).1.free r).bufs m.next = some ⟨l.length, l⟩ := by
        rw [free_bufs, if_neg]
        · rw [h2]; simp
        · rw [alloc_own]
          intro hc
          obtain ⟨x, hx⟩ := hw.live _ _ hc
          exact absurd (hw.below _ _ hx) (Nat.lt_irrefl _)
      rw [h2] at this
      simp [make, h2, elems, setOwn, this]
  · rw [if_neg h]
    refine elems_congr (make_own m s r l h) fun b hb => ?_
    show ((m.alloc l).1.free s).bufs b = m.bufs b
    rw [free_bufs, alloc_own, if_neg (fun hs => h (hw.uniq r s b hb hs))]
    obtain ⟨x, hx⟩ := hw.live _ _ hb
    have := hw.below _ _ hx
    rcases alloc_cases m l with ⟨h1, h2⟩ | ⟨h1, h2⟩ <;> rw [h2]
    simp [Nat.ne_of_lt this]

theorem make_bufs {m : Vecs α} (s : Slot) (l : List α) (b : Nat) (hlt : b < m.next) :
    (m.make s l).bufs b = if m.own s = some (some b) then none else m.bufs b := by
  show ((m.alloc l).1.free s).bufs b = _
  rw [free_bufs, alloc_own]
  rcases alloc_cases m l with ⟨h1, h2⟩ | ⟨h1, h2⟩ <;> rw [h2]
  simp [Nat.ne_of_lt hlt]

theorem make_next (m : Vecs α) (s : Slot) (l : List α) : m.next ≤ (m.make s l).next := by
  show m.next ≤ ((m.alloc l).1.free s).next
  rw [free_next]
  rcases alloc_cases m l with ⟨h1, h2⟩ | ⟨h1, h2⟩ <;> rw [h2]
  · exact Nat.le_refl _
  · exact Nat.le_succ _

theorem make_wf {m : Vecs α} (hw : m.WF) (s : Slot) (l : List α) : (m.make s l).WF := by
  have hbufs : ∀ b x, (m.make s l).bufs b = some x →
      (m.own s ≠ some (some b) ∧ m.bufs b = some x) ∨ (l ≠ [] ∧ b = m.next ∧ x = ⟨l.length, l⟩ ∧ (m.alloc l).2 = some m.next) := by
    intro b x hb
    rcases alloc_cases m l with ⟨h1, h2⟩ | ⟨h1, h2⟩
    · left
      have : ((m.alloc l).1.free s).bufs b = some x := hb
      rw [free_bufs, alloc_own, h2] at this
      split at this
      · simp at this
      · rename_i hn; exact ⟨hn, this⟩
    · have : ((m.alloc l).1.free s).bufs b = some x := hb
      rw [free_bufs, alloc_own, h2] at this
      split at this
      · simp at this
      · rename_i hn
        simp only at this
        split at this
        · rename_i he
          right
          exact ⟨h1, he, by simpa using this.symm, by rw [h2]⟩
        · left; exact ⟨hn, this⟩
  have hnext : (l ≠ [] → (m.make s l).next = m.next + 1) := by
    intro h
    show ((m.alloc l).1.free s).next = _
    rw [free_next]
    rcases alloc_cases m l with ⟨h1, h2⟩ | ⟨h1, h2⟩
    · exact absurd h1 h
    · rw [h2]
  have hself : (m.make s l).own s = some (m.alloc l).2 := by simp [make, setOwn]
  have hnew : ∀ b, (m.alloc l).2 = some b → b = m.next ∧ (m.make s l).bufs b = some ⟨l.length, l⟩ := by
    intro b hb
    rcases alloc_cases m l with ⟨h1, h2⟩ | ⟨h1, h2⟩
    · rw [h2] at hb; simp at hb
    · rw [h2] at hb
      have : b = m.next := by simpa using hb.symm
      subst this
      refine ⟨rfl, ?_⟩
      show ((m.alloc l).1.free s).bufs m.next = _
      rw [free_bufs, alloc_own, if_neg, h2]
      · simp
      · intro hc
        obtain ⟨x, hx⟩ := hw.live _ _ hc
        exact absurd (hw.below _ _ hx) (Nat.lt_irrefl _)
  have hbefore : ∀ r b, m.own r = some (some b) → b < m.next := by
    intro r b h
    obtain ⟨x, hx⟩ := hw.live _ _ h
    exact hw.below _ _ hx
  refine ⟨fun b x hb => ?_, fun r b hr => ?_, fun r q b hr hq => ?_, fun b x hb => ?_, fun b x hb => ?_⟩
  · rcases hbufs b x hb with ⟨_, h1⟩ | ⟨h0, h1, _⟩
    · exact Nat.lt_of_lt_of_le (hw.below _ _ h1) (make_next m s l)
    · rw [hnext h0, h1]; exact Nat.lt_succ_self _
  · by_cases h : r = s
    · subst h
      rw [hself] at hr
      exact ⟨_, (hnew b (by simpa using hr)).2⟩
    · rw [make_own _ _ _ _ h] at hr
      rw [make_bufs s l b (hbefore r b hr), if_neg (fun hs => h (hw.uniq r s b hr hs))]
      exact hw.live r b hr
  · by_cases h : r = s <;> by_cases g : q = s
    · rw [h, g]
    · subst h
      rw [hself] at hr
      rw [make_own _ _ _ _ g] at hq
      have := (hnew b (by simpa using hr)).1
      have := hbefore q b hq
      omega
    · subst g
      rw [hself] at hq
      rw [make_own _ _ _ _ h] at hr
      have := (hnew b (by simpa using hq)).1
      have := hbefore r b hr
      omega
    · rw [make_own _ _ _ _ h] at hr
      rw [make_own _ _ _ _ g] at hq
      exact hw.uniq _ _ _ hr hq
  · rcases hbufs b x hb with ⟨h0, h1⟩ | ⟨h0, h1, _, h2⟩
    · obtain ⟨r, hr⟩ := hw.owned b x h1
      have : r ≠ s := fun h => h0 (h ▸ hr)
      exact ⟨r, by rw [make_own _ _ _ _ this]; exact hr⟩
    · exact ⟨s, by rw [hself, h2, h1]⟩
  · rcases hbufs b x hb with ⟨_, h1⟩ | ⟨_, _, h1, _⟩
    · exact hw.room _ _ h1
    · rw [h1]; exact Nat.le_refl _

/-! ### Destruction -/

theorem destroy_own (m : Vecs α) (s r : Slot) : (m.destroy s).own r = if r = s then none else m.own r := by
  simp [destroy, setOwn, free_own]

theorem destroy_bufs (m : Vecs α) (s : Slot) (b : Nat) :
    (m.destroy s).bufs b = if m.own s = some (some b) then none else m.bufs b := free_bufs m s b

theorem destroy_elems {m : Vecs α} (hw : m.WF) (s r : Slot) : (m.destroy s).elems r = if r = s then none else m.elems r := by
  by_cases h : r = s
  · subst h; rw [if_pos rfl]; unfold elems; rw [destroy_own, if_pos rfl]
  · rw [if_neg h]
    refine elems_congr (by rw [destroy_own, if_neg h]) fun b hb => ?_
    rw [destroy_bufs, if_neg (fun hs => h (hw.uniq r s b hb hs))]

theorem destroy_wf {m : Vecs α} (hw : m.WF) (s : Slot) : (m.destroy s).WF := by
  have hb : ∀ b x, (m.destroy s).bufs b = some x → m.own s ≠ some (some b) ∧ m.bufs b = some x := by
    intro b x h
    rw [destroy_bufs] at h
    split at h
    · simp at h
    · rename_i hn; exact ⟨hn, h⟩
  have ho : ∀ r b, (m.destroy s).own r = some (some b) → r ≠ s ∧ m.own r = some (some b) := by
    intro r b h
    rw [destroy_own] at h
    split at h
    · simp at h
    · rename_i hn; exact ⟨hn, h⟩
  refine ⟨fun b x h => ?_, fun r b h => ?_, fun r q b h g => ?_, fun b x h => ?_, fun b x h => ?_⟩
  · show b < (m.free s).next
    rw [free_next]; exact hw.below _ _ (hb b x h).2
  · obtain ⟨h1, h2⟩ := ho r b h
    rw [destroy_bufs, if_neg (fun hs => h1 (hw.uniq r s b h2 hs))]
    exact hw.live _ _ h2
  · exact hw.uniq _ _ _ (ho r b h).2 (ho q b g).2
  · obtain ⟨h1, h2⟩ := hb b x h
    obtain ⟨r, hr⟩ := hw.owned b x h2
    refine ⟨r, ?_⟩
    have : r ≠ s := fun e => h1 (e ▸ hr)
    rw [destroy_own, if_neg this]; exact hr
  · exact hw.room _ _ (hb b x h).2

/-! ### A new content for an owned buffer -/

theorem setBuf_wf {m : Vecs α} (hw : m.WF) {b : Nat} {y z : Storage α} (hb : m.bufs b = some y) (hz : z.elems.length ≤ z.cap) :
    (m.setBuf b (some z)).WF := by
  have hbufs : ∀ c x, (m.setBuf b (some z)).bufs c = some x → (c = b ∧ x = z) ∨ (c ≠ b ∧ m.bufs c = some x) := by
    intro c x h
    simp only [setBuf] at h
    split at h
    · left; rename_i he; exact ⟨he, by simpa using h.symm⟩
    · right; rename_i he; exact ⟨he, h⟩
  refine ⟨fun c x h => ?_, fun r c h => ?_, fun r q c h g => hw.uniq r q c h g, fun c x h => ?_, fun c x h => ?_⟩
  · rcases hbufs c x h with ⟨h1, _⟩ | ⟨_, h1⟩
    · rw [h1]; exact hw.below _ _ hb
    · exact hw.below _ _ h1
  · obtain ⟨x, hx⟩ := hw.live r c h
    simp only [setBuf]
    split
    · exact ⟨_, rfl⟩
    · exact ⟨x, hx⟩
  · rcases hbufs c x h with ⟨h1, _⟩ | ⟨_, h1⟩
    · rw [h1]; exact hw.owned _ _ hb
    · exact hw.owned _ _ h1
  · rcases hbufs c x h with ⟨_, h1⟩ | ⟨_, h1⟩
    · rw [h1]; exact hz
    · exact hw.room _ _ h1

theorem setBuf_elems {m : Vecs α} (hw : m.WF) {b : Nat} {s : Slot} (hs : m.own s = some (some b)) (z : Storage α) (r : Slot) :
    (m.setBuf b (some z)).elems r = if r = s then some z.elems else m.elems r := by
  by_cases h : r = s
  · subst h; rw [if_pos rfl]; exact elems_of_own (m := m.setBuf b (some z)) hs (by simp [setBuf])
  · rw [if_neg h]
    refine elems_congr rfl fun c hc => ?_
    have : c ≠ b := fun e => h (hw.uniq r s b (e ▸ hc) hs)
    simp [setBuf, this]

/-! ### Copy assignment -/

theorem assign_cases {m : Vecs α} (hw : m.WF) (s : Slot) (l : List α) :
    (∃ b x, m.own s = some (some b) ∧ m.bufs b = some x ∧ l.length ≤ x.cap ∧ m.assign s l = m.setBuf b (some { x with elems := l })) ∨
    (m.assign s l = m.make s l ∧ ∀ b x, m.own s = some (some b) → m.bufs b = some x → x.cap < l.length) := by
  unfold assign
  cases h : m.own s with
  | none => right; exact ⟨rfl, by simp⟩
  | some o => cases o with
    | none => right; exact ⟨rfl, by simp⟩
    | some b =>
      obtain ⟨x, hx⟩ := hw.live s b h
      simp only [hx]
      by_cases hc : l.length ≤ x.cap
      · left; exact ⟨b, x, rfl, hx, hc, by rw [if_pos hc]⟩
      · right
        refine ⟨by rw [if_neg hc], fun c y h1 h2 => ?_⟩
        simp only [Option.some.injEq] at h1
        subst h1
        rw [hx] at h2
        simp only [Option.some.injEq] at h2
        subst h2
        omega

theorem assign_wf {m : Vecs α} (hw : m.WF) (s : Slot) (l : List α) : (m.assign s l).WF := by
  rcases assign_cases hw s l with ⟨b, x, h1, h2, h3, h4⟩ | ⟨h4, _⟩ <;> rw [h4]
  · exact setBuf_wf hw h2 h3
  · exact make_wf hw s l

theorem assign_elems {m : Vecs α} (hw : m.WF) (s r : Slot) (l : List α) : (m.assign s l).elems r = if r = s then some l else m.elems r := by
  rcases assign_cases hw s l with ⟨b, x, h1, h2, h3, h4⟩ | ⟨h4, _⟩ <;> rw [h4]
  · exact setBuf_elems hw h1 _ r
  · exact make_elems hw s r l

theorem assign_own {m : Vecs α} (hw : m.WF) (s r : Slot) (l : List α) (h : r ≠ s) : (m.assign s l).own r = m.own r := by
  rcases assign_cases hw s l with ⟨b, x, h1, h2, h3, h4⟩ | ⟨h4, _⟩ <;> rw [h4]
  · rfl
  · exact make_own m s r l h

/-! ### Moves -/

theorem move_own (m : Vecs α) (dst src r : Slot) :
    (m.move dst src).own r = if r = src then some none else if r = dst then m.own src else m.own r := by
  unfold move
  split
  · rename_i h
    subst h
    simp only [setOwn, free_own]
    split
    · rfl
    · rfl
  · simp only [setOwn, free_own]

theorem move_bufs (m : Vecs α) (dst src : Slot) (b : Nat) :
    (m.move dst src).bufs b = if m.own dst = some (some b) then none else m.bufs b := by
  unfold move
  split <;> exact free_bufs m dst b

theorem move_next (m : Vecs α) (dst src : Slot) : (m.move dst src).next = m.next := by
  unfold move
  split <;> exact free_next m dst

theorem move_wf {m : Vecs α} (hw : m.WF) (dst src : Slot) : (m.move dst src).WF := by
  have hb : ∀ b x, (m.move dst src).bufs b = some x → m.own dst ≠ some (some b) ∧ m.bufs b = some x := by
    intro b x h
    rw [move_bufs] at h
    split at h
    · simp at h
    · rename_i hn; exact ⟨hn, h⟩
  have ho : ∀ r b, (m.move dst src).own r = some (some b) →
      (r = dst ∧ dst ≠ src ∧ m.own src = some (some b)) ∨ (r ≠ src ∧ r ≠ dst ∧ m.own r = some (some b)) := by
    intro r b h
    rw [move_own] at h
    split at h
    · simp at h
    · rename_i h1
      split at h
      · rename_i h2; left; exact ⟨h2, h2 ▸ h1, h⟩
      · rename_i h2; right; exact ⟨h1, h2, h⟩
  refine ⟨fun b x h => ?_, fun r b h => ?_, fun r q b h g => ?_, fun b x h => ?_, fun b x h => ?_⟩
  · rw [move_next]; exact hw.below _ _ (hb b x h).2
  · rw [move_bufs]
    rcases ho r b h with ⟨h1, h2, h3⟩ | ⟨h1, h2, h3⟩
    · rw [if_neg (fun hs => h2 (hw.uniq _ _ _ hs h3))]; exact hw.live _ _ h3
    · rw [if_neg (fun hs => h2 (hw.uniq _ _ _ h3 hs))]; exact hw.live _ _ h3
  · rcases ho r b h with ⟨h1, h2, h3⟩ | ⟨h1, h2, h3⟩ <;> rcases ho q b g with ⟨g1, g2, g3⟩ | ⟨g1, g2, g3⟩
    · rw [h1, g1]
    · exact absurd (hw.uniq _ _ _ g3 h3) g1
    · exact absurd (hw.uniq _ _ _ h3 g3) h1
    · exact hw.uniq _ _ _ h3 g3
  · obtain ⟨h1, h2⟩ := hb b x h
    obtain ⟨r, hr⟩ := hw.owned b x h2
    have hrd : r ≠ dst := fun e => h1 (e ▸ hr)
    by_cases hrs : r = src
    · refine ⟨dst, ?_⟩
      rw [move_own, if_neg (fun e => hrd (hrs.trans e.symm)), if_pos rfl, ← hrs, hr]
    · refine ⟨r, ?_⟩
      rw [move_own, if_neg hrs, if_neg hrd, hr]
  · exact hw.room _ _ (hb b x h).2

theorem move_elems {m : Vecs α} (hw : m.WF) (dst src r : Slot) :
    (m.move dst src).elems r = if r = src then some [] else if r = dst then m.elems src else m.elems r := by
  by_cases h1 : r = src
  · rw [if_pos h1]; unfold elems; rw [move_own, if_pos h1]
  · rw [if_neg h1]
    by_cases h2 : r = dst
    · rw [if_pos h2]
      have : (m.move dst src).own r = m.own src := by rw [move_own, if_neg h1, if_pos h2]
      unfold elems
      rw [this]
      cases h : m.own src with
      | none => rfl
      | some o => cases o with
        | none => rfl
        | some b =>
          simp only []
          rw [move_bufs, if_neg (fun hs => h1 (h2.trans (hw.uniq _ _ _ hs h)))]
    · rw [if_neg h2]
      refine elems_congr (by rw [move_own, if_neg h1, if_neg h2]) fun b hb => ?_
      rw [move_bufs, if_neg (fun hs => h2 (hw.uniq _ _ _ hb hs))]

/-! ### Writes -/

theorem write_ok {m m' : Vecs α} {p : Ptr} {x : α} (h : m.write p x = .ok m') :
    ∃ y, m.bufs p.buf = some y ∧ p.off < y.elems.length ∧ m' = m.setBuf p.buf (some { y with elems := y.elems.set p.off x }) := by
  unfold write at h
  split at h
  · rename_i y hy
    split at h
    · rename_i hl; exact ⟨y, hy, hl, by simpa using h.symm⟩
    · simp at h
  · simp at h

theorem write_wf {m m' : Vecs α} (hw : m.WF) {p : Ptr} {x : α} (h : m.write p x = .ok m') : m'.WF := by
  obtain ⟨y, h1, h2, rfl⟩ := write_ok h
  exact setBuf_wf hw h1 (by simpa using hw.room _ _ h1)

theorem write_own {m m' : Vecs α} {p : Ptr} {x : α} (h : m.write p x = .ok m') : m'.own = m.own := by
  obtain ⟨y, h1, h2, rfl⟩ := write_ok h; rfl

theorem fill_own (m : Vecs α) (s : Slot) (l : List α) : (m.fill s l).own = m.own := by
  unfold fill
  split
  · split <;> rfl
  · rfl

theorem fill_next (m : Vecs α) (s : Slot) (l : List α) : (m.fill s l).next = m.next := by
  unfold fill
  split
  · split <;> rfl
  · rfl

theorem fill_wf {m : Vecs α} (hw : m.WF) (s : Slot) (l l0 : List α) (h0 : m.elems s = some l0) (hl : l.length = l0.length) : (m.fill s l).WF := by
  unfold fill
  split
  · rename_i b hb
    split
    · rename_i y hy
      refine setBuf_wf hw hy ?_
      have := hw.room _ _ hy
      rw [elems_of_own hb hy] at h0
      simp only [Option.some.injEq] at h0
      show (l ++ y.elems.drop l.length).length ≤ y.cap
      rw [List.drop_eq_nil_of_le (Nat.le_of_eq (by rw [hl, h0])), List.append_nil, hl, ← h0]
      exact this
    · exact hw
  · exact hw

theorem fill_elems {m : Vecs α} (hw : m.WF) (s r : Slot) (l l0 : List α) (h0 : m.elems s = some l0) (hl : l.length = l0.length) :
    (m.fill s l).elems r = if r = s then some l else m.elems r := by
  unfold fill
  split
  · rename_i b hb
    obtain ⟨y, hy⟩ := hw.live _ _ hb
    simp only [hy]
    rw [setBuf_elems hw hb]
    rw [elems_of_own hb hy] at h0
    simp only [Option.some.injEq] at h0
    rw [List.drop_eq_nil_of_le (Nat.le_of_eq (by rw [hl, h0])), List.append_nil]
  · rename_i hn
    split
    · rename_i h
      rw [h, h0]
      cases ho : m.own s with
      | none => simp [elems, ho] at h0
      | some o => cases o with
        | none =>
          simp only [elems, ho, Option.some.injEq] at h0
          rw [← h0] at hl ⊢
          simp only [List.length_nil, List.length_eq_zero_iff] at hl
          rw [hl]
        | some b => exact absurd ho (hn b)
    · rfl

end Vecs
end Npy
