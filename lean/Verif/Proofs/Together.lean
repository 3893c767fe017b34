import Verif.Model.Together
import Verif.Proofs.Globals
/-!
# Archives open at the same time: calls on other paths make no difference
-/

namespace Npy

/-- The same for a path. -/
structure SameAt (p : Bytes) (a b : Fs) : Prop where
  file : a.file p = b.file p
  readable : a.readable p = b.readable p
  writable : a.writable p = b.writable p
  room : a.room = b.room

theorem SameAt.refl (p : Bytes) (a : Fs) : SameAt p a a := ⟨rfl, rfl, rfl, rfl⟩

theorem SameAt.put {p : Bytes} {a b : Fs} (h : SameAt p a b) (bs : Bytes) : SameAt p (a.put p bs) (b.put p bs) :=
  ⟨by simp [Fs.put], h.readable, h.writable, h.room⟩

theorem SameAt.put_other {p q : Bytes} {a b : Fs} (h : SameAt p a b) (hq : q ≠ p) (bs : Bytes) : SameAt p (a.put q bs) b :=
  ⟨by show (if p = q then _ else _) = _; rw [if_neg (Ne.symm hq)]; exact h.file, h.readable, h.writable, h.room⟩

theorem SameAt.openIn {p : Bytes} {a b : Fs} (h : SameAt p a b) : a.openIn p = b.openIn p := by
  unfold Fs.openIn; rw [h.file, h.readable]

theorem SameAt.openOut {p : Bytes} {a b : Fs} (h : SameAt p a b) :
    (a.openOut p).1 = (b.openOut p).1 ∧ SameAt p (a.openOut p).2 (b.openOut p).2 := by
  unfold Fs.openOut
  rw [h.writable, h.room]
  split
  · exact ⟨rfl, h.put _⟩
  · exact ⟨rfl, h⟩

theorem SameAt.openOut_other {p q : Bytes} {a b : Fs} (h : SameAt p a b) (hq : q ≠ p) : SameAt p (a.openOut q).2 b := by
  unfold Fs.openOut
  split
  · exact h.put_other hq _
  · exact h

theorem savePath_eq {α : Type} (cfg : Cfg) (ops : ElemOps α) (t : Tensor α) (e : Endian) (p : Bytes) (fs : Fs) :
    savePath cfg ops t e p fs =
      if !(fs.openOut p).1.isOpen then (.error (.throw (.invalidArgument .path)), (fs.openOut p).2)
      else match save cfg ops t e (fs.openOut p).1 with
        | .ok o => (.ok (), (fs.openOut p).2.put p o.buf)
        | .error err => (.error err, (fs.openOut p).2) := rfl

theorem savePath_at {α : Type} (cfg : Cfg) (ops : ElemOps α) (t : Tensor α) (e : Endian) {p : Bytes} {a b : Fs} (h : SameAt p a b) :
    (savePath cfg ops t e p a).1 = (savePath cfg ops t e p b).1 ∧ SameAt p (savePath cfg ops t e p a).2 (savePath cfg ops t e p b).2 := by
  obtain ⟨h1, h2⟩ := h.openOut
  rw [savePath_eq, savePath_eq, h1]
  split
  · exact ⟨rfl, h2⟩
  · split
    · exact ⟨rfl, h2.put _⟩
    · exact ⟨rfl, h2⟩

theorem savePath_other {α : Type} (cfg : Cfg) (ops : ElemOps α) (t : Tensor α) (e : Endian) {p q : Bytes} {a b : Fs} (h : SameAt p a b)
    (hq : q ≠ p) : SameAt p (savePath cfg ops t e q a).2 b := by
  have h2 := h.openOut_other hq
  rw [savePath_eq]
  split
  · exact h2
  · split
    · exact h2.put_other hq _
    · exact h2

/-- The same for a path, whatever the globals hold. -/
structure DeskAt (p : Bytes) (a b : Desk) : Prop where
  fs : SameAt p a.fs b.fs
  obj : a.obj p = b.obj p
  g : a.g.Sound
  g' : b.g.Sound

theorem runG_eq (cfg : Cfg) (codec : Codec) (r : Reader) (g : Globals) (hg : g.Sound) (c : RdCall) :
    (c.runG cfg codec r g).1 = c.out cfg codec r ∧ (c.runG cfg codec r g).2.1 = c.run cfg codec r ∧
      (c.runG cfg codec r g).2.2.Sound := by
  cases c with
  | read α ops name =>
    show RdOut.read α _ = RdOut.read α _ ∧
      (Reader.readG cfg codec ops name (r, g)).2.1 = (Reader.read cfg codec ops name r).2 ∧ Globals.Sound (Reader.readG cfg codec ops name (r, g)).2.2
    unfold Reader.readG Reader.read
    rw [SM.bind_apply]
    dsimp only
    match Reader.readFile codec name r with
    | (.error e, r') => exact ⟨rfl, rfl, hg⟩
    | (.ok bytes, r') =>
      have := load_tracks cfg ops (IStream.ofBytes bytes) g hg
      exact ⟨congrArg _ this.1, rfl, this.2.2.1⟩
  | peek name =>
    show RdOut.peek _ = RdOut.peek _ ∧
      (Reader.peekG cfg codec name (r, g)).2.1 = (Reader.peek cfg codec name r).2 ∧ Globals.Sound (Reader.peekG cfg codec name (r, g)).2.2
    unfold Reader.peekG Reader.peek
    rw [SM.bind_apply]
    dsimp only
    match Reader.readFile codec name r with
    | (.error e, r') => exact ⟨rfl, rfl, hg⟩
    | (.ok bytes, r') =>
      have := readNpyHeader_tracks cfg (IStream.ofBytes bytes) g hg
      exact ⟨congrArg _ this.1, rfl, this.2.2.1⟩
  | contains name => exact ⟨rfl, rfl, hg⟩
  | keys => exact ⟨rfl, rfl, hg⟩

theorem Desk.set_self (d : Desk) (p : Bytes) (o : DeskObj) : (d.set p o).obj p = o := by simp [Desk.set]

theorem Desk.set_other (d : Desk) {p q : Bytes} (o : DeskObj) (h : q ≠ p) : (d.set q o).obj p = d.obj p := by
  show (if p = q then _ else _) = _
  rw [if_neg (Ne.symm h)]

theorem putIf_at {p : Bytes} {a b : Fs} (h : SameAt p a b) (bs : Bytes) :
    SameAt p (if a.writable p then a.put p bs else a) (if b.writable p then b.put p bs else b) := by
  rw [h.writable]
  split
  · exact h.put _
  · exact h

theorem putIf_other {p q : Bytes} {a b : Fs} (h : SameAt p a b) (hq : q ≠ p) (bs : Bytes) :
    SameAt p (if a.writable q then a.put q bs else a) b := by
  split
  · exact h.put_other hq _
  · exact h

/-- A call on the path itself. -/
theorem run_at (cfg : Cfg) (codec : Codec) {p : Bytes} {a b : Desk} (h : DeskAt p a b) (c : TCall) :
    (c.run cfg codec p a).1 = (c.run cfg codec p b).1 ∧ DeskAt p (c.run cfg codec p a).2 (c.run cfg codec p b).2 := by
  cases c with
  | openW method e =>
    simp only [TCall.run, h.obj]
    split
    · obtain ⟨h1, h2⟩ := h.fs.openOut
      rw [h1]
      exact ⟨rfl, h2, by rw [Desk.set_self, Desk.set_self], h.g, h.g'⟩
    · exact ⟨rfl, h⟩
  | write c =>
    simp only [TCall.run, h.obj]
    split
    · exact ⟨rfl, putIf_at h.fs _, by rw [Desk.set_self, Desk.set_self], h.g, h.g'⟩
    · exact ⟨rfl, h⟩
  | openR =>
    simp only [TCall.run, h.obj, h.fs.openIn]
    split
    · split
      · exact ⟨rfl, h.fs, by rw [Desk.set_self, Desk.set_self], h.g, h.g'⟩
      · exact ⟨rfl, h⟩
    · exact ⟨rfl, h⟩
  | read c =>
    simp only [TCall.run, h.obj]
    split
    · rename_i r _
      obtain ⟨a1, a2, a3⟩ := runG_eq cfg codec r a.g h.g c
      obtain ⟨b1, b2, b3⟩ := runG_eq cfg codec r b.g h.g' c
      exact ⟨by rw [a1, b1], h.fs, by rw [Desk.set_self, Desk.set_self, a2, b2], a3, b3⟩
    · exact ⟨rfl, h⟩
  | destroy =>
    simp only [TCall.run, h.obj]
    split
    · exact ⟨rfl, putIf_at h.fs _, by rw [Desk.set_self, Desk.set_self], h.g, h.g'⟩
    · exact ⟨rfl, h.fs, by rw [Desk.set_self, Desk.set_self], h.g, h.g'⟩
    · exact ⟨rfl, h⟩
  | save t e =>
    simp only [TCall.run, h.obj]
    split
    · obtain ⟨h1, h2⟩ := savePath_at cfg t.ops t.x e h.fs
      exact ⟨by rw [h1], h2, h.obj, h.g, h.g'⟩
    · exact ⟨rfl, h⟩
  | load k =>
    simp only [TCall.run, h.fs.openIn]
    split
    · exact ⟨rfl, h⟩
    · obtain ⟨a1, -, a3, -⟩ := load_tracks cfg k.ops (b.fs.openIn p) a.g h.g
      obtain ⟨b1, -, b3, -⟩ := load_tracks cfg k.ops (b.fs.openIn p) b.g h.g'
      exact ⟨by rw [a1, b1], h.fs, h.obj, a3, b3⟩
  | peek =>
    simp only [TCall.run, h.fs.openIn]
    split
    · exact ⟨rfl, h⟩
    · obtain ⟨a1, -, a3, -⟩ := readNpyHeader_tracks cfg (b.fs.openIn p) a.g h.g
      obtain ⟨b1, -, b3, -⟩ := readNpyHeader_tracks cfg (b.fs.openIn p) b.g h.g'
      exact ⟨by unfold peekG; rw [a1, b1], h.fs, h.obj, a3, b3⟩

/-- A call on another path. -/
theorem run_other (cfg : Cfg) (codec : Codec) {p q : Bytes} (hq : q ≠ p) {a b : Desk} (h : DeskAt p a b) (c : TCall) :
    DeskAt p (c.run cfg codec q a).2 b := by
  have hs : ∀ o, (a.set q o).obj p = b.obj p := fun o => (Desk.set_other a o hq).trans h.obj
  cases c with
  | openW method e =>
    simp only [TCall.run]
    split
    · exact ⟨h.fs.openOut_other hq, hs _, h.g, h.g'⟩
    · exact h
  | write c =>
    simp only [TCall.run]
    split
    · exact ⟨putIf_other h.fs hq _, hs _, h.g, h.g'⟩
    · exact h
  | openR =>
    simp only [TCall.run]
    split
    · split
      · exact ⟨h.fs, hs _, h.g, h.g'⟩
      · exact h
    · exact h
  | read c =>
    simp only [TCall.run]
    split
    · rename_i r _
      exact ⟨h.fs, hs _, (runG_eq cfg codec r a.g h.g c).2.2, h.g'⟩
    · exact h
  | destroy =>
    simp only [TCall.run]
    split
    · exact ⟨putIf_other h.fs hq _, hs _, h.g, h.g'⟩
    · exact ⟨h.fs, hs _, h.g, h.g'⟩
    · exact h
  | save t e =>
    simp only [TCall.run]
    split
    · exact ⟨savePath_other cfg t.ops t.x e h.fs hq, h.obj, h.g, h.g'⟩
    · exact h
  | load k =>
    simp only [TCall.run]
    split
    · exact h
    · exact ⟨h.fs, h.obj, (load_tracks cfg k.ops _ a.g h.g).2.2.1, h.g'⟩
  | peek =>
    simp only [TCall.run]
    split
    · exact h
    · exact ⟨h.fs, h.obj, (readNpyHeader_tracks cfg _ a.g h.g).2.2.1, h.g'⟩

theorem runAll_at (cfg : Cfg) (codec : Codec) (p : Bytes) : ∀ (calls : List (Bytes × TCall)) {a b : Desk}, DeskAt p a b →
    (TCall.runAll cfg codec calls a).filter (fun x => decide (x.1 = p)) =
      TCall.runAll cfg codec (calls.filter fun x => decide (x.1 = p)) b ∧
    DeskAt p (TCall.after cfg codec calls a) (TCall.after cfg codec (calls.filter fun x => decide (x.1 = p)) b)
  | [], _, _, h => ⟨rfl, h⟩
  | (q, c) :: calls, a, b, h => by
    by_cases hq : q = p
    · subst hq
      obtain ⟨h1, h2⟩ := run_at cfg codec h c
      obtain ⟨i1, i2⟩ := runAll_at cfg codec q calls h2
      rw [List.filter_cons_of_pos (by simp)]
      refine ⟨?_, i2⟩
      show List.filter _ ((q, _) :: _) = (q, _) :: _
      rw [List.filter_cons_of_pos (by simp), i1, h1]
    · obtain ⟨i1, i2⟩ := runAll_at cfg codec p calls (run_other cfg codec hq h c)
      rw [List.filter_cons_of_neg (by simp [hq])]
      refine ⟨?_, i2⟩
      show List.filter _ ((q, _) :: _) = _
      rw [List.filter_cons_of_neg (by simp [hq]), i1]

end Npy
