import Verif.Proofs.Together
import Verif.Proofs.Buffered
import Verif.Props.Program
/-!
# C88: archives open at the same time
-/

namespace Npy

/-! ### Sequences of calls on one path -/

/-- Calls on one path. -/
def onPath (p : Bytes) (cs : List TCall) : List (Bytes × TCall) := cs.map fun c => (p, c)

/-- The outcomes of the calls on a path. -/
def outcomesOn (p : Bytes) (outs : List (Bytes × TOut)) : List TOut := (outs.filter fun x => decide (x.1 = p)).map (·.2)

/-- The calls on a path. -/
def callsOn (p : Bytes) (calls : List (Bytes × TCall)) : List TCall := (calls.filter fun x => decide (x.1 = p)).map (·.2)

theorem filter_onPath (p : Bytes) (calls : List (Bytes × TCall)) :
    (calls.filter fun x => decide (x.1 = p)) = onPath p (callsOn p calls) := by
  unfold onPath callsOn
  rw [List.map_map]
  conv_lhs => rw [← List.map_id (calls.filter _)]
  apply List.map_congr_left
  rintro ⟨q, c⟩ h
  have := of_decide_eq_true (List.mem_filter.1 h).2
  simp only [] at this
  rw [this]
  rfl

theorem Desk.start_at (fs : Fs) (p : Bytes) : DeskAt p (Desk.start fs) (Desk.start fs) :=
  ⟨SameAt.refl p fs, rfl, Globals.initial_sound, Globals.initial_sound⟩

/-- **C88** Whatever else a program does with other paths, between and around them, its calls on one path come to the outcomes they would
come to alone, and leave the file they would leave alone: any number of writers and readers can be open at the same time. -/
theorem C88_alone (cfg : Cfg) (codec : Codec) (fs : Fs) (calls : List (Bytes × TCall)) (p : Bytes) :
    outcomesOn p (TCall.runAll cfg codec calls (Desk.start fs)) =
      (TCall.runAll cfg codec (onPath p (callsOn p calls)) (Desk.start fs)).map (·.2) ∧
    (TCall.after cfg codec calls (Desk.start fs)).fs.file p =
      (TCall.after cfg codec (onPath p (callsOn p calls)) (Desk.start fs)).fs.file p := by
  obtain ⟨h1, h2⟩ := runAll_at cfg codec p calls (Desk.start_at fs p)
  rw [filter_onPath] at h1 h2
  unfold outcomesOn
  exact ⟨by rw [h1], h2.fs.file⟩

/-- The path of a call. -/
def pathOf : PCall → Bytes
  | .save _ _ p => p
  | .load _ p => p
  | .peek p => p
  | .pack _ _ p _ => p
  | .unpack p _ => p

/-- The single calls that a scope with an archive consists of. -/
def expand : PCall → List TCall
  | .save t e _ => [.save t e]
  | .load k _ => [.load k]
  | .peek _ => [.peek]
  | .pack method e _ puts => .openW method e :: ((puts.map fun q => .write (.write q.2 q.1)) ++ [.destroy])
  | .unpack _ calls => .openR :: (calls.map .read ++ [.destroy])

/-- Their outcomes; after a constructor that has thrown there is no object to call. -/
def spread : PCall → POut → List TOut
  | _, .save r => [.done r]
  | _, .load α r => [.load α r]
  | _, .peek r => [.peek r]
  | _, .pack rs => .done (.ok ()) :: (rs.map .done ++ [.done (.ok ())])
  | _, .unpack (.ok outs) => .done (.ok ()) :: (outs.map .answer ++ [.done (.ok ())])
  | c, .unpack (.error err) => .done (.error err) :: List.replicate ((expand c).length - 1) .skipped

theorem runAll_append (cfg : Cfg) (codec : Codec) : ∀ (xs ys : List (Bytes × TCall)) (d : Desk),
    TCall.runAll cfg codec (xs ++ ys) d = TCall.runAll cfg codec xs d ++ TCall.runAll cfg codec ys (TCall.after cfg codec xs d) ∧
      TCall.after cfg codec (xs ++ ys) d = TCall.after cfg codec ys (TCall.after cfg codec xs d)
  | [], _, _ => ⟨rfl, rfl⟩
  | (p, c) :: xs, ys, d => by
    obtain ⟨h1, h2⟩ := runAll_append cfg codec xs ys (c.run cfg codec p d).2
    exact ⟨congrArg (_ :: ·) h1, h2⟩

theorem writes_run (cfg : Cfg) (codec : Codec) (p : Bytes) : ∀ (cs : List WrCall) (w : Writer) (d : Desk), d.obj p = .writer w →
    (TCall.runAll cfg codec (onPath p (cs.map .write ++ [.destroy])) d).map (·.2) =
        ((Writer.trace cfg codec w cs).map fun x => .done x.2) ++ [.done (.ok ())] ∧
      (TCall.after cfg codec (onPath p (cs.map .write ++ [.destroy])) d).fs =
        (if d.fs.writable p then d.fs.put p (Writer.destroy (Writer.after cfg codec w cs)).2.output.buf else d.fs) ∧
      (TCall.after cfg codec (onPath p (cs.map .write ++ [.destroy])) d).obj p = .none ∧
      (TCall.after cfg codec (onPath p (cs.map .write ++ [.destroy])) d).g = d.g
  | [], w, d, h => by
    have e : TCall.run cfg codec p .destroy d = (.done (.ok ()), { d.set p .none with
        fs := if d.fs.writable p then d.fs.put p (Writer.destroy w).2.output.buf else d.fs }) := by
      simp only [TCall.run, h]
    refine ⟨?_, ?_, ?_, ?_⟩
    · show [(TCall.run cfg codec p .destroy d).1] = _; rw [e]; rfl
    · show (TCall.run cfg codec p .destroy d).2.fs = _; rw [e]; rfl
    · show (TCall.run cfg codec p .destroy d).2.obj p = _; rw [e]; exact Desk.set_self _ _ _
    · show (TCall.run cfg codec p .destroy d).2.g = _; rw [e]; rfl
  | c :: cs, w, d, h => by
    have e : TCall.run cfg codec p (.write c) d = (.done (c.run cfg codec w).1, { d.set p (.writer (c.run cfg codec w).2) with
        fs := if d.fs.writable p then d.fs.put p (c.run cfg codec w).2.output.buf else d.fs }) := by
      simp only [TCall.run, h]
    obtain ⟨h1, h2, h3, h4⟩ := writes_run cfg codec p cs (c.run cfg codec w).2 (TCall.run cfg codec p (.write c) d).2
      (by rw [e]; exact Desk.set_self _ _ _)
    refine ⟨?_, ?_, h3, h4.trans (by rw [e]; rfl)⟩
    · refine (congrArg ((TCall.run cfg codec p (.write c) d).1 :: ·) h1).trans ?_
      rw [e]
      rfl
    · refine h2.trans ?_
      rw [e]
      show (if (if d.fs.writable p then d.fs.put p _ else d.fs).writable p then Fs.put (if d.fs.writable p then _ else _) p _ else _) = _
      cases hw : d.fs.writable p
      · simp only [hw, Bool.false_eq_true, if_false]
      · simp only [if_true]
        rw [if_pos (show (d.fs.put p _).writable p = true from hw), put_put]
        rfl

theorem reads_run (cfg : Cfg) (codec : Codec) (p : Bytes) : ∀ (cs : List RdCall) (r : Reader) (d : Desk), d.obj p = .reader r → d.g.Sound →
    (TCall.runAll cfg codec (onPath p (cs.map .read ++ [.destroy])) d).map (·.2) =
        (Reader.outs cfg codec r cs).map .answer ++ [.done (.ok ())] ∧
      (TCall.after cfg codec (onPath p (cs.map .read ++ [.destroy])) d).fs = d.fs ∧
      (TCall.after cfg codec (onPath p (cs.map .read ++ [.destroy])) d).obj p = .none ∧
      (TCall.after cfg codec (onPath p (cs.map .read ++ [.destroy])) d).g.Sound
  | [], r, d, h, hg => by
    have e : TCall.run cfg codec p .destroy d = (.done (.ok ()), d.set p .none) := by simp only [TCall.run, h]
    refine ⟨?_, ?_, ?_, ?_⟩
    · show [(TCall.run cfg codec p .destroy d).1] = _; rw [e]; rfl
    · show (TCall.run cfg codec p .destroy d).2.fs = _; rw [e]; rfl
    · show (TCall.run cfg codec p .destroy d).2.obj p = _; rw [e]; exact Desk.set_self _ _ _
    · show (TCall.run cfg codec p .destroy d).2.g.Sound; rw [e]; exact hg
  | c :: cs, r, d, h, hg => by
    have e : TCall.run cfg codec p (.read c) d = (.answer (c.runG cfg codec r d.g).1,
        { d.set p (.reader (c.runG cfg codec r d.g).2.1) with g := (c.runG cfg codec r d.g).2.2 }) := by
      simp only [TCall.run, h]
    obtain ⟨a1, a2, a3⟩ := runG_eq cfg codec r d.g hg c
    obtain ⟨h1, h2, h3, h4⟩ := reads_run cfg codec p cs (c.run cfg codec r) (TCall.run cfg codec p (.read c) d).2
      (by rw [e, ← a2]; exact Desk.set_self _ _ _) (by rw [e]; exact a3)
    refine ⟨?_, h2.trans (by rw [e]; rfl), h3, h4⟩
    refine (congrArg ((TCall.run cfg codec p (.read c) d).1 :: ·) h1).trans ?_
    rw [e]
    simp only [a1]
    rfl

theorem skips_run (cfg : Cfg) (codec : Codec) (p : Bytes) : ∀ (cs : List RdCall) (d : Desk), d.obj p = .none →
    (TCall.runAll cfg codec (onPath p (cs.map .read ++ [.destroy])) d).map (·.2) = List.replicate (cs.length + 1) .skipped ∧
      TCall.after cfg codec (onPath p (cs.map .read ++ [.destroy])) d = d
  | [], d, h => by
    have e : TCall.run cfg codec p .destroy d = (.skipped, d) := by simp only [TCall.run, h]
    refine ⟨?_, ?_⟩
    · show [(TCall.run cfg codec p .destroy d).1] = _; rw [e]; rfl
    · show (TCall.run cfg codec p .destroy d).2 = _; rw [e]
  | c :: cs, d, h => by
    have e : TCall.run cfg codec p (.read c) d = (.skipped, d) := by simp only [TCall.run, h]
    obtain ⟨h1, h2⟩ := skips_run cfg codec p cs d h
    refine ⟨?_, ?_⟩
    · have h1' : ((TCall.runAll cfg codec (onPath p (cs.map .read ++ [.destroy])) (TCall.run cfg codec p (.read c) d).2).map (·.2)) =
          List.replicate (cs.length + 1) .skipped := by rw [e]; exact h1
      refine (congrArg ((TCall.run cfg codec p (.read c) d).1 :: ·) h1').trans ?_
      rw [e]
      rfl
    · show TCall.after cfg codec (onPath p (cs.map TCall.read ++ [.destroy])) (TCall.run cfg codec p (.read c) d).2 = _
      rw [e]
      exact h2

/-- A scope run call by call does what the scope does. -/
theorem expand_run (cfg : Cfg) (codec : Codec) (p : Bytes) (c : PCall) (hp : pathOf c = p) (d : Desk) (h : d.obj p = .none) (hg : d.g.Sound) :
    (TCall.runAll cfg codec (onPath p (expand c)) d).map (·.2) = spread c (c.run cfg codec d.fs).1 ∧
      (TCall.after cfg codec (onPath p (expand c)) d).fs = (c.run cfg codec d.fs).2 ∧
      (TCall.after cfg codec (onPath p (expand c)) d).obj p = .none ∧
      (TCall.after cfg codec (onPath p (expand c)) d).g.Sound := by
  subst hp
  cases c with
  | save t e p =>
    simp only [pathOf] at h ⊢
    have e1 : TCall.run cfg codec p (.save t e) d = (.done (savePath cfg t.ops t.x e p d.fs).1,
        { d with fs := (savePath cfg t.ops t.x e p d.fs).2 }) := by simp only [TCall.run, h]
    refine ⟨?_, ?_, ?_, ?_⟩
    · show [(TCall.run cfg codec p (.save t e) d).1] = _; rw [e1]; rfl
    · show (TCall.run cfg codec p (.save t e) d).2.fs = _; rw [e1]; rfl
    · show (TCall.run cfg codec p (.save t e) d).2.obj p = _; rw [e1]; exact h
    · show (TCall.run cfg codec p (.save t e) d).2.g.Sound; rw [e1]; exact hg
  | load k p =>
    simp only [pathOf] at h ⊢
    obtain ⟨a1, -, a3, -⟩ := load_tracks cfg k.ops (d.fs.openIn p) d.g hg
    show [(TCall.run cfg codec p (.load k) d).1] = [TOut.load k.α (loadPath cfg k.ops p d.fs).1] ∧
      (TCall.run cfg codec p (.load k) d).2.fs = (loadPath cfg k.ops p d.fs).2 ∧ (TCall.run cfg codec p (.load k) d).2.obj p = _ ∧
      (TCall.run cfg codec p (.load k) d).2.g.Sound
    have e2 : loadPath cfg k.ops p d.fs = if !(d.fs.openIn p).isOpen then (.error (.throw (.invalidArgument .path)), d.fs)
      else ((load cfg k.ops (d.fs.openIn p)).1, d.fs) := rfl
    rw [e2]
    simp only [TCall.run]
    split
    · exact ⟨rfl, rfl, h, hg⟩
    · exact ⟨by rw [a1], rfl, h, a3⟩
  | peek p =>
    simp only [pathOf] at h ⊢
    obtain ⟨a1, -, a3, -⟩ := readNpyHeader_tracks cfg (d.fs.openIn p) d.g hg
    show [(TCall.run cfg codec p .peek d).1] = [TOut.peek (peekPath cfg p d.fs).1] ∧
      (TCall.run cfg codec p .peek d).2.fs = (peekPath cfg p d.fs).2 ∧ (TCall.run cfg codec p .peek d).2.obj p = _ ∧
      (TCall.run cfg codec p .peek d).2.g.Sound
    have e2 : peekPath cfg p d.fs = if !(d.fs.openIn p).isOpen then (.error (.throw (.invalidArgument .path)), d.fs)
      else ((peek cfg (d.fs.openIn p)).1, d.fs) := rfl
    rw [e2]
    simp only [TCall.run]
    split
    · exact ⟨rfl, rfl, h, hg⟩
    · exact ⟨by unfold peekG peek; rw [a1], rfl, h, a3⟩
  | pack method e p puts =>
    simp only [pathOf] at h ⊢
    have e1 : TCall.run cfg codec p (.openW method e) d = (.done (.ok ()),
        { d.set p (.writer (Writer.newFile (d.fs.openOut p).1 method e)) with fs := (d.fs.openOut p).2 }) := by simp only [TCall.run, h]
    have e2 : (puts.map fun q => TCall.write (.write q.2 q.1)) = (puts.map fun q => WrCall.write q.2 q.1).map .write := by
      rw [List.map_map]; rfl
    obtain ⟨h1, h2, h3, h4⟩ := writes_run cfg codec p (puts.map fun q => .write q.2 q.1) (Writer.newFile (d.fs.openOut p).1 method e)
      (TCall.run cfg codec p (.openW method e) d).2 (by rw [e1]; exact Desk.set_self _ _ _)
    have e3 : expand (.pack method e p puts) = .openW method e :: ((puts.map fun q => WrCall.write q.2 q.1).map .write ++ [.destroy]) :=
      congrArg (fun x => TCall.openW method e :: (x ++ [TCall.destroy])) e2
    rw [e3]
    refine ⟨?_, ?_, h3, ?_⟩
    · refine (congrArg ((TCall.run cfg codec p (.openW method e) d).1 :: ·) h1).trans ?_
      rw [e1]
      show _ = TOut.done (.ok ()) :: (List.map TOut.done (List.map (fun x => x.2) (Writer.trace cfg codec (Writer.newFile (d.fs.openOut p).1 method e)
        (puts.map fun q => .write q.2 q.1))) ++ [TOut.done (.ok ())])
      rw [List.map_map]
      rfl
    · refine h2.trans ?_
      rw [e1]
      show (if (d.fs.openOut p).2.writable p then (d.fs.openOut p).2.put p _ else (d.fs.openOut p).2) =
        if (d.fs.openOut p).1.isOpen then (d.fs.openOut p).2.put p _ else (d.fs.openOut p).2
      have e4 : (d.fs.openOut p).2.writable p = (d.fs.openOut p).1.isOpen := by
        unfold Fs.openOut
        cases hw : d.fs.writable p
        · exact hw
        · exact hw
      rw [e4]
      rfl
    · show (TCall.after cfg codec (onPath p (List.map TCall.write _ ++ [TCall.destroy])) (TCall.run cfg codec p (.openW method e) d).2).g.Sound
      rw [h4, e1]
      exact hg
  | unpack p calls =>
    simp only [pathOf] at h ⊢
    have e2 : (PCall.run cfg codec (.unpack p calls) d.fs) =
      (.unpack (match Reader.open (d.fs.openIn p) with | .ok rd => .ok (rd.outs cfg codec calls) | .error err => .error err), d.fs) := rfl
    rw [e2]
    match ho : Reader.open (d.fs.openIn p) with
    | .ok r =>
      have e1 : TCall.run cfg codec p .openR d = (.done (.ok ()), d.set p (.reader r)) := by simp only [TCall.run, h, ho]
      obtain ⟨h1, h2, h3, h4⟩ := reads_run cfg codec p calls r (TCall.run cfg codec p .openR d).2 (by rw [e1]; exact Desk.set_self _ _ _)
        (by rw [e1]; exact hg)
      refine ⟨?_, h2.trans (by rw [e1]; rfl), h3, h4⟩
      refine (congrArg ((TCall.run cfg codec p .openR d).1 :: ·) h1).trans ?_
      rw [e1]
      rfl
    | .error err =>
      have e1 : TCall.run cfg codec p .openR d = (.done (.error err), d) := by simp only [TCall.run, h, ho]
      obtain ⟨h1, h2⟩ := skips_run cfg codec p calls (TCall.run cfg codec p .openR d).2 (by rw [e1]; exact h)
      have h2' : TCall.after cfg codec (onPath p (expand (.unpack p calls))) d = d := h2.trans (by rw [e1])
      refine ⟨?_, by rw [h2'], by rw [h2']; exact h, by rw [h2']; exact hg⟩
      refine (congrArg ((TCall.run cfg codec p .openR d).1 :: ·) h1).trans ?_
      rw [e1]
      show _ = TOut.done (.error err) :: List.replicate ((expand (.unpack p calls)).length - 1) .skipped
      simp [expand]

/-- The outcomes of several calls, one after the other. -/
def spreadAll (mine : List PCall) (outs : List POut) : List TOut := (List.zipWith spread mine outs).flatten

theorem expandAll_run (cfg : Cfg) (codec : Codec) (p : Bytes) : ∀ (mine : List PCall), (∀ c ∈ mine, pathOf c = p) → ∀ (d : Desk),
    d.obj p = .none → d.g.Sound →
    (TCall.runAll cfg codec (onPath p (mine.flatMap expand)) d).map (·.2) = spreadAll mine (PCall.runAll cfg codec mine d.fs) ∧
      (TCall.after cfg codec (onPath p (mine.flatMap expand)) d).fs = PCall.after cfg codec mine d.fs
  | [], _, d, _, _ => ⟨rfl, rfl⟩
  | c :: mine, hp, d, h, hg => by
    obtain ⟨h1, h2, h3, h4⟩ := expand_run cfg codec p c (hp c (by simp)) d h hg
    obtain ⟨i1, i2⟩ := expandAll_run cfg codec p mine (fun c hc => hp c (List.mem_cons_of_mem _ hc)) _ h3 h4
    have e : onPath p ((c :: mine).flatMap expand) = onPath p (expand c) ++ onPath p (mine.flatMap expand) := by
      unfold onPath; rw [List.flatMap_cons, List.map_append]
    obtain ⟨a1, a2⟩ := runAll_append cfg codec (onPath p (expand c)) (onPath p (mine.flatMap expand)) d
    rw [e, a1, a2, List.map_append, h1, i1, i2, h2]
    exact ⟨rfl, rfl⟩

/-- **C88** The calls of a program on one path are those of some scopes and calls one after the other (`mine`), interrupted anywhere by calls
on other paths, on which other archives are open: their outcomes and the file are those of the scopes one after the other, alone. -/
theorem C88_scopes (cfg : Cfg) (codec : Codec) (fs : Fs) (calls : List (Bytes × TCall)) (p : Bytes) (mine : List PCall)
    (hp : ∀ c ∈ mine, pathOf c = p) (h : callsOn p calls = mine.flatMap expand) :
    outcomesOn p (TCall.runAll cfg codec calls (Desk.start fs)) = spreadAll mine (PCall.runAll cfg codec mine fs) ∧
    (TCall.after cfg codec calls (Desk.start fs)).fs.file p = (PCall.after cfg codec mine fs).file p := by
  obtain ⟨h1, h2⟩ := C88_alone cfg codec fs calls p
  obtain ⟨i1, i2⟩ := expandAll_run cfg codec p mine hp (Desk.start fs) rfl Globals.initial_sound
  rw [h] at h1 h2
  exact ⟨h1.trans i1, h2.trans (by rw [i2]; rfl)⟩

/-- **C88** With C76: every one of the archives open at the same time gives what it should. -/
theorem C88_meets (cfg : Cfg) (j : Junk) (n : Nat) (hn : 2 ^ 36 ≤ n) (fs : Fs) (hroom : fs.room = none) (calls : List (Bytes × TCall)) (p : Bytes)
    (mine : List PCall) (hp : ∀ c ∈ mine, pathOf c = p) (h : callsOn p calls = mine.flatMap expand)
    (hc : Spec.ProperAll cfg ⟨fs.readable, fs.writable⟩ (fun p => (fs.file p).map fun _ => .foreign) mine) :
    ∃ outs, Spec.MeetsAll cfg ⟨fs.readable, fs.writable⟩ (fun p => (fs.file p).map fun _ => .foreign) mine outs ∧
      outcomesOn p (TCall.runAll cfg (miniz cfg j n) calls (Desk.start fs)) = spreadAll mine outs :=
  ⟨_, C76_programs cfg j n hn fs hroom mine hc, (C88_scopes cfg _ fs calls p mine hp h).1⟩

/-! ### Several readers, also of one file -/

theorem readers_alone (cfg : Cfg) (codec : Codec) (h : Nat) : ∀ (calls : List (Nat × RdCall)) (rs : Nat → Reader) (g : Globals), g.Sound →
    ((RdCall.runAll cfg codec calls rs g).filter fun x => decide (x.1 = h)).map (·.2) =
      (rs h).outs cfg codec ((calls.filter fun x => decide (x.1 = h)).map (·.2))
  | [], _, _, _ => rfl
  | (k, c) :: calls, rs, g, hg => by
    obtain ⟨a1, a2, a3⟩ := runG_eq cfg codec (rs k) g hg c
    have ih := readers_alone cfg codec h calls (fun i => if i = k then (c.runG cfg codec (rs k) g).2.1 else rs i) _ a3
    show (((k, (c.runG cfg codec (rs k) g).1) :: RdCall.runAll cfg codec calls _ (c.runG cfg codec (rs k) g).2.2).filter _).map _ = _
    by_cases hk : k = h
    · subst hk
      rw [List.filter_cons_of_pos (by simp), List.filter_cons_of_pos (by simp), List.map_cons, List.map_cons, ih, if_pos rfl, a1, a2]
      rfl
    · rw [List.filter_cons_of_neg (by simpa using hk), List.filter_cons_of_neg (by simpa using hk), ih, if_neg (Ne.symm hk)]

/-- **C88** Any number of readers, of different files or of the same one, whatever is in the files: each answers as it would alone. -/
theorem C88_readers (cfg : Cfg) (codec : Codec) (rs : Nat → Reader) (calls : List (Nat × RdCall)) (h : Nat) :
    ((RdCall.runAll cfg codec calls rs Globals.initial).filter fun x => decide (x.1 = h)).map (·.2) =
      (rs h).outs cfg codec ((calls.filter fun x => decide (x.1 = h)).map (·.2)) :=
  readers_alone cfg codec h calls rs _ Globals.initial_sound

/-- Two readers of one file: what the second answers. -/
example (codec : Codec) (r : Reader) :
    ((RdCall.runAll exCfg codec [(0, .keys), (1, .read WStr wideOps b!"y"), (0, .read Elem (fixedOps .int16) b!"x"), (1, .peek b!"x")]
      (fun _ => r) Globals.initial).filter fun x => decide (x.1 = 1)).map (·.2) =
    [.read WStr (r.read exCfg codec wideOps b!"y").1, .peek (Reader.peek exCfg codec b!"x" (r.read exCfg codec wideOps b!"y").2).1] :=
  C88_readers exCfg codec (fun _ => r) _ 1

/-! ### Two archives written at the same time, one of them read before the other is finished -/

/-- What happens on `/a`. -/
def exMineA : List PCall := [.pack DEFLATED .little b!"/a" exPuts, .unpack b!"/a" [.read WStr wideOps b!"y", .keys]]

/-- What happens on `/b`. -/
def exMineB : List PCall :=
  [.pack STORED .little b!"/b" exPuts, .unpack b!"/b" [.keys, .read Elem (fixedOps .int16) b!"x", .peek b!"z"], .load ⟨WStr, wideOps⟩ b!"/b"]

/-- Two lists of calls, one of `/a` and one of `/b` in turn as long as there are two, then two of `/b` for each of `/a`. -/
def exMix : List TCall → List TCall → List (Bytes × TCall)
  | a :: as, b :: b' :: bs => (b!"/b", b) :: (b!"/a", a) :: (b!"/b", b') :: exMix as bs
  | as, bs => onPath b!"/a" as ++ onPath b!"/b" bs

/-- Both archives are open for writing at the same time; that on `/b` is read while that on `/a` is still being written. -/
def exTogether : List (Bytes × TCall) := exMix (exMineA.flatMap expand) (exMineB.flatMap expand)

/-- `/a` is opened when `/b` is open already, and `/b` is read when `/a` is still being written. -/
example : exTogether.map (fun x => (x.1, match x.2 with | .openW _ _ => 0 | .write _ => 1 | .openR => 2 | .read _ => 3 | .destroy => 4 | _ => 5)) =
    [(b!"/b", 0), (b!"/a", 0), (b!"/b", 1), (b!"/b", 1), (b!"/a", 1), (b!"/b", 1), (b!"/b", 4), (b!"/a", 1), (b!"/b", 2), (b!"/b", 3),
      (b!"/a", 1), (b!"/b", 3), (b!"/b", 3), (b!"/a", 4), (b!"/b", 4), (b!"/a", 2), (b!"/a", 3), (b!"/a", 3), (b!"/a", 4), (b!"/b", 5)] := rfl

theorem exTogether_a : callsOn b!"/a" exTogether = exMineA.flatMap expand := rfl

theorem exTogether_b : callsOn b!"/b" exTogether = exMineB.flatMap expand := rfl

theorem exMineA_proper : Spec.ProperAll exCfg ⟨exFs.readable, exFs.writable⟩ (fun p => (exFs.file p).map fun _ => .foreign) exMineA := by
  refine ⟨exPuts_packable _ (.inr rfl), ⟨?_, fun _ => .inr ⟨_, _, rfl⟩⟩, trivial⟩
  intro c hc
  simp only [List.mem_cons, List.not_mem_nil, or_false] at hc
  rcases hc with rfl | rfl
  · exact .wide
  · trivial

theorem exMineA_paths : ∀ c ∈ exMineA, pathOf c = b!"/a" := by
  intro c hc
  simp only [exMineA, List.mem_cons, List.not_mem_nil, or_false] at hc
  rcases hc with rfl | rfl <;> rfl

/-- What the calls on `/a` come to, from the theorem. -/
example (j : Junk) : ∃ names, outcomesOn b!"/a" (TCall.runAll exCfg (miniz exCfg j (2 ^ 37)) exTogether (Desk.start exFs)) =
    [.done (.ok ()), .done (.ok ()), .done (.ok ()), .done (.ok ()), .done (.ok ()),
      .done (.ok ()), .answer (.read WStr (.ok exWide)), .answer (.keys names), .done (.ok ())] ∧
      names.Perm [b!"x.npy", b!"y.npy", b!"x.npy"] := by
  obtain ⟨outs, h, e⟩ := C88_meets exCfg j (2 ^ 37) (by norm_num) exFs rfl exTogether b!"/a" exMineA exMineA_paths exTogether_a exMineA_proper
  rw [e]
  obtain ⟨o1, r1, rfl, h1, o2, r2, rfl, h2, rfl⟩ := h
  obtain ⟨q2, k2, rfl⟩ := meets_unpack (puts := exPuts) h2 rfl rfl
  cases k2 with
  | cons a1 k2 => cases k2 with
    | cons a2 k2 =>
      cases k2
      obtain ⟨p1, b1, rfl⟩ := rdMeets_read (t := ⟨WStr, wideOps, exWide⟩) a1 rfl
      have e1 : p1 = .ok exWide := loadsAs_same (t := ⟨WStr, wideOps, exWide⟩) b1
      cases a2 with
      | keys c1 c2 =>
        cases h1 with
        | pack => subst e1; exact ⟨_, rfl, c1⟩

end Npy
