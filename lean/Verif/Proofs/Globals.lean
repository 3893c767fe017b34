import Verif.Model.Globals
import Verif.Props.Threads
import Verif.Props.Dtype
/-!
# What earlier calls leave in the globals has no effect
-/

namespace Npy

/-- The table answers as the initial one. -/
def Globals.Sound (g : Globals) : Prop := ∀ d, (fromDtypeM g.map d).1 = fromDtype d

/-- `BUFFER` begins with these characters. -/
def Globals.Begins (g : Globals) (token : Bytes) : Prop := ∀ i, i < token.length → g.buffer i = token.getD i 0

/-- From globals with `R`, `xg` does to the stream what `x` does and has its outcome, and leaves globals with `Q a` when it returns `a`. -/
def Tracks {α : Type} (R : Globals → Prop) (xg : GM α) (x : IM α) (Q : α → Globals → Prop) : Prop :=
  ∀ s g, R g → (xg (s, g)).1 = (x s).1 ∧ (xg (s, g)).2.1 = (x s).2 ∧ (xg (s, g)).2.2.Sound ∧
    ∀ a, (x s).1 = .ok a → Q a (xg (s, g)).2.2

theorem Tracks.bind {α β : Type} {R : Globals → Prop} {xg : GM α} {x : IM α} {Q : α → Globals → Prop} {fg : α → GM β} {f : α → IM β}
    {Q' : β → Globals → Prop} (hx : Tracks R xg x Q) (hf : ∀ a, Tracks (Q a) (fg a) (f a) Q') :
    Tracks R (xg >>= fg) (x >>= f) Q' := by
  intro s g hR
  obtain ⟨h1, h2, h3, h4⟩ := hx s g hR
  rw [SM.bind_apply, SM.bind_apply]
  match hs : x s, hg : xg (s, g) with
  | (.ok a, s'), (.ok a', (s'', g')) =>
    rw [hs, hg] at h1 h2
    rw [hg] at h3 h4
    rw [hs] at h4
    simp only [Except.ok.injEq] at h1
    dsimp only at h2
    subst h1 h2
    exact hf a' s'' g' (h4 a' rfl)
  | (.error e, s'), (.error e', (s'', g')) =>
    rw [hs, hg] at h1 h2
    rw [hg] at h3
    simp only [Except.error.injEq] at h1
    dsimp only at h2
    subst h1 h2
    exact ⟨rfl, rfl, h3, fun a ha => by simp at ha⟩
  | (.ok a, s'), (.error e', (s'', g')) => rw [hs, hg] at h1; simp at h1
  | (.error e, s'), (.ok a', (s'', g')) => rw [hs, hg] at h1; simp at h1

theorem Tracks.lift {α : Type} {R : Globals → Prop} (hR : ∀ g, R g → g.Sound) (x : IM α) : Tracks R (GM.lift x) x (fun _ => R) :=
  fun _ g h => ⟨rfl, rfl, hR g h, fun _ _ => h⟩

theorem Tracks.pure {α : Type} {R : Globals → Prop} {Q : α → Globals → Prop} (hR : ∀ g, R g → g.Sound) (a : α)
    (hQ : ∀ g, R g → Q a g) : Tracks R (Pure.pure a : GM α) (Pure.pure a : IM α) Q :=
  fun _ g h => ⟨rfl, rfl, hR g h, fun _ hb => by
    simp only [SM.pure_apply, Except.ok.injEq] at hb
    subst hb
    exact hQ g h⟩

theorem Tracks.fail {α : Type} {R : Globals → Prop} (hR : ∀ g, R g → g.Sound) (e : Err) (Q : α → Globals → Prop) :
    Tracks R (SM.fail e : GM α) (SM.fail e : IM α) Q := fun _ g h => ⟨rfl, rfl, hR g h, fun _ ha => by simp at ha⟩

theorem Tracks.weaken {α : Type} {R R' : Globals → Prop} {xg : GM α} {x : IM α} {Q Q' : α → Globals → Prop} (h : Tracks R xg x Q)
    (hR : ∀ g, R' g → R g) (hQ : ∀ a g, Q a g → Q' a g) : Tracks R' xg x Q' :=
  fun s g hg => ⟨(h s g (hR g hg)).1, (h s g (hR g hg)).2.1, (h s g (hR g hg)).2.2.1, fun a ha => hQ a _ ((h s g (hR g hg)).2.2.2 a ha)⟩

theorem Tracks.ite {α : Type} {R : Globals → Prop} {Q : α → Globals → Prop} {c : Prop} [Decidable c] {xg yg : GM α} {x y : IM α}
    (hx : c → Tracks R xg x Q) (hy : ¬ c → Tracks R yg y Q) : Tracks R (if c then xg else yg) (if c then x else y) Q := by
  split
  · exact hx ‹_›
  · exact hy ‹_›

/-- Sound globals whose `BUFFER` begins with a token. -/
def Fresh (token : Bytes) (g : Globals) : Prop := g.Sound ∧ g.Begins token

theorem getD_append_left' {l m : Bytes} {i : Nat} (h : i < l.length) (d : UInt8) : (l ++ m).getD i d = l.getD i d := by
  rw [List.getD_eq_getElem?_getD, List.getD_eq_getElem?_getD, List.getElem?_append_left h]

theorem copy_of_begins {b : Buffer} {t : Bytes} (h : ∀ i, i < t.length → b i = t.getD i 0) : b.copy t.length = t := by
  have := Buffer.copy_of_holds h (Nat.le_refl _)
  rw [this, List.take_length]

theorem readToken_tracks (delim : Byte) :
    Tracks Globals.Sound (readTokenG delim) (IStream.getUntil (BUFFER_SIZE - 1) delim) Fresh := by
  intro s g hg
  have hne : ∃ tok s', IStream.getUntil (BUFFER_SIZE - 1) delim s = (.ok tok, s') := by
    unfold IStream.getUntil
    dsimp only
    split
    · exact ⟨_, _, rfl⟩
    · exact ⟨_, _, rfl⟩
  obtain ⟨tok, s', ht⟩ := hne
  have hb : ∀ i, i < tok.length → (g.buffer.fill (tok ++ [0])) i = tok.getD i 0 := by
    intro i hi
    simp only [Buffer.fill]
    rw [getD_append_left' hi, List.getD_eq_getElem?_getD, List.getD_eq_getElem?_getD, List.getElem?_eq_getElem hi]
    rfl
  have run : readTokenG delim (s, g) = (.ok tok, (s', { g with buffer := g.buffer.fill (tok ++ [0]) })) := by
    unfold readTokenG
    rw [SM.bind_ok (show GM.lift (IStream.getUntil (BUFFER_SIZE - 1) delim) (s, g) = (.ok tok, (s', g)) by
      simp only [GM.lift, ht])]
    rw [SM.bind_ok (show GM.fill (tok ++ [0]) (s', g) = (.ok (), (s', { g with buffer := g.buffer.fill (tok ++ [0]) })) from rfl)]
    simp only [GM.copy, copy_of_begins hb]
  rw [run, ht]
  refine ⟨rfl, rfl, hg, fun a ha => ?_⟩
  simp only [Except.ok.injEq] at ha
  subst ha
  exact ⟨hg, hb⟩

theorem readTo_tracks (delim : Byte) : Tracks Globals.Sound (readToG delim) (readTo delim) Fresh := by
  unfold readToG readTo
  refine (Tracks.lift (fun _ h => h) _).bind fun a => ?_
  match a with
  | none => exact readToken_tracks delim
  | some c =>
    exact .ite (fun _ => .pure (fun _ h => h) _ fun g h => ⟨h, fun i hi => by simp at hi⟩) (fun _ => readToken_tracks delim)

theorem Fresh.sound {t : Bytes} (g : Globals) (h : Fresh t g) : g.Sound := h.1

theorem readString_tracks (cfg : Cfg) : Tracks Globals.Sound (readStringG cfg) (readString cfg) Fresh := by
  unfold readStringG readString
  refine (Tracks.lift (fun _ h => h) _).bind fun _ => (readTo_tracks 39).bind fun token => ?_
  exact (Tracks.lift Fresh.sound _).bind fun _ => .pure Fresh.sound _ fun _ h => h

/-- A short read of a literal leaves in the place of its last character what `BUFFER` held: with another character there, the
comparison fails, as it does on the characters read alone. -/
theorem readLit_tracks (cfg : Cfg) (expected token : Bytes) (hlen : expected.length ≤ token.length)
    (hpos : 0 < expected.length)
    (hlast : token.getD (expected.length - 1) 0 ≠ expected.getD (expected.length - 1) 0) :
    Tracks (Fresh token) (readLitG cfg expected) (readLit cfg expected) (fun _ => Globals.Sound) := by
  intro s g hg
  have hr : ∃ got s', IStream.read expected.length s = (.ok got, s') ∧ got.length ≤ expected.length := by
    unfold IStream.read
    dsimp only
    split
    · split
      · exact ⟨_, _, rfl, by simp⟩
      · exact ⟨_, _, rfl, by omega⟩
    · exact ⟨_, _, rfl, by simp⟩
  obtain ⟨got, s', hr, hgl⟩ := hr
  have hcmp : ((g.buffer.fill got).copy expected.length = expected) ↔ got = expected := by
    constructor
    · intro h
      by_cases hl : got.length = expected.length
      · have hb : ∀ i, i < got.length → (g.buffer.fill got) i = got.getD i 0 := by
          intro i hi
          simp only [Buffer.fill]
          rw [List.getD_eq_getElem?_getD, List.getD_eq_getElem?_getD, List.getElem?_eq_getElem hi]
          rfl
        rw [← hl, copy_of_begins hb] at h
        exact h
      · exfalso
        have hi : expected.length - 1 < ((g.buffer.fill got).copy expected.length).length := by
          simp only [Buffer.copy, List.length_map, List.length_range]; omega
        have e1 : ((g.buffer.fill got).copy expected.length).getD (expected.length - 1) 0 = token.getD (expected.length - 1) 0 := by
          rw [List.getD_eq_getElem?_getD, List.getElem?_eq_getElem hi]
          simp only [Buffer.copy, List.getElem_map, List.getElem_range, Option.getD_some, Buffer.fill]
          rw [List.getD_eq_getElem?_getD, List.getElem?_eq_none (by omega)]
          exact hg.2 _ (by omega)
        rw [h] at e1
        exact hlast e1.symm
    · intro h
      subst h
      apply copy_of_begins
      intro i hi
      simp only [Buffer.fill]
      rw [List.getD_eq_getElem?_getD, List.getD_eq_getElem?_getD, List.getElem?_eq_getElem hi]
      rfl
  have run : readLitG cfg expected (s, g) = ((if cfg.ndebug then .ok () else if got = expected then .ok () else .error .abort),
      (s', { g with buffer := g.buffer.fill got })) := by
    unfold readLitG
    rw [SM.bind_ok (show GM.lift (IStream.read expected.length) (s, g) = (.ok got, (s', g)) by simp only [GM.lift, hr])]
    rw [SM.bind_ok (show GM.fill got (s', g) = (.ok (), (s', { g with buffer := g.buffer.fill got })) from rfl)]
    rw [SM.bind_ok (show GM.copy expected.length (s', { g with buffer := g.buffer.fill got }) =
      (.ok ((g.buffer.fill got).copy expected.length), (s', { g with buffer := g.buffer.fill got })) from rfl)]
    cases cfg.ndebug
    · simp only [Bool.false_eq_true, if_false, hcmp]
      split <;> rfl
    · rfl
  have run' : readLit cfg expected s = ((if cfg.ndebug then .ok () else if got = expected then .ok () else .error .abort), s') := by
    unfold readLit
    rw [SM.bind_ok hr]
    cases cfg.ndebug
    · simp only [Bool.false_eq_true, if_false]
      split <;> rfl
    · rfl
  rw [run, run']
  exact ⟨rfl, rfl, hg.1, fun _ _ => hg.1⟩

theorem readBool_tracks (cfg : Cfg) :
    Tracks (Fresh b!"fortran_order") (readBoolG cfg) (readBool cfg) (fun _ => Globals.Sound) := by
  unfold readBoolG readBool
  refine (Tracks.lift Fresh.sound _).bind fun _ => ?_
  refine .ite (fun _ => ?_) fun _ => ?_
  · exact (readLit_tracks cfg _ _ (by decide) (by decide) (by decide)).bind fun _ => .pure (fun _ h => h) _ fun _ h => h
  · refine (Tracks.lift Fresh.sound _).bind fun _ => ?_
    refine .ite (fun _ => ?_) fun _ => .fail Fresh.sound _ _
    exact (readLit_tracks cfg _ _ (by decide) (by decide) (by decide)).bind fun _ => .pure (fun _ h => h) _ fun _ h => h

theorem Tracks.liftE {α : Type} {R : Globals → Prop} (hR : ∀ g, R g → g.Sound) (x : Except Err α) :
    Tracks R (SM.lift x) (SM.lift x) (fun _ => R) :=
  fun _ g h => ⟨rfl, rfl, hR g h, fun _ _ => h⟩

theorem readShape_tracks (cfg : Cfg) : Tracks Globals.Sound (readShapeG cfg) (readShape cfg) (fun _ => Globals.Sound) := by
  unfold readShapeG readShape
  refine (Tracks.lift (fun _ h => h) _).bind fun _ => (readTo_tracks 41).bind fun text => ?_
  refine (Tracks.lift Fresh.sound _).bind fun _ => ?_
  exact (Tracks.liftE Fresh.sound _).weaken (fun _ h => h) fun _ _ h => h.1

theorem setDescr_tracks (h : HeaderInfo) (code : Bytes) :
    Tracks Globals.Sound (setDescrG h code) (SM.lift (setDescr h code)) (fun _ => Globals.Sound) := by
  intro s g hg
  match code with
  | [] => exact ⟨rfl, rfl, hg, fun _ _ => hg⟩
  | c0 :: rest =>
    rw [setDescrG, setDescr]
    by_cases hu : rest.head? = some 85
    · rw [if_pos hu, if_pos hu]
      match stoi (rest.drop 1) with
      | .ok v => exact ⟨rfl, rfl, hg, fun _ _ => hg⟩
      | .error e => exact ⟨rfl, rfl, hg, fun _ _ => hg⟩
    · rw [if_neg hu, if_neg hu]
      have hs : ∀ d, (fromDtypeM (fromDtypeM g.map (c0 :: rest)).2 d).1 = fromDtype d := fun d => by
        rw [fromDtypeM_stable]; exact hg d
      rw [SM.bind_ok (show fromDtypeG (c0 :: rest) (s, g) = (.ok (fromDtype (c0 :: rest)),
        (s, { g with map := (fromDtypeM g.map (c0 :: rest)).2 })) by simp only [fromDtypeG, hg (c0 :: rest)])]
      exact ⟨rfl, rfl, hs, fun _ _ => hs⟩

theorem parseValue_tracks (cfg : Cfg) (h : HeaderInfo) (key : Bytes) :
    Tracks (Fresh key) (parseValueG cfg h key) (parseValue cfg h key) (fun _ => Globals.Sound) := by
  unfold parseValueG parseValue
  refine .ite (fun _ => ?_) fun _ => ?_
  · exact ((readString_tracks cfg).weaken (fun _ h => h.1) fun _ _ h => h.1).bind fun _ => setDescr_tracks h _
  · refine .ite (fun hk => ?_) fun _ => ?_
    · subst hk
      exact (readBool_tracks cfg).bind fun _ => .pure (fun _ h => h) _ fun _ h => h
    · refine .ite (fun _ => ?_) fun _ => .fail Fresh.sound _ _
      exact ((readShape_tracks cfg).weaken (fun _ h => h.1) fun _ _ h => h).bind fun _ => .pure (fun _ h => h) _ fun _ h => h

theorem parseItem_tracks (cfg : Cfg) (h : HeaderInfo) :
    Tracks Globals.Sound (parseItemG cfg h) (parseItem cfg h) (fun _ => Globals.Sound) := by
  unfold parseItemG parseItem
  refine (Tracks.lift (fun _ h => h) _).bind fun _ => (readString_tracks cfg).bind fun key => ?_
  refine (Tracks.lift Fresh.sound _).bind fun _ => (Tracks.lift Fresh.sound _).bind fun _ => (Tracks.lift Fresh.sound _).bind fun _ => ?_
  refine (parseValue_tracks cfg h key).bind fun _ => (Tracks.lift (fun _ h => h) _).bind fun _ => ?_
  exact (Tracks.lift (fun _ h => h) _).bind fun _ => .pure (fun _ h => h) _ fun _ h => h

theorem parseItems_tracks (cfg : Cfg) (fuel : Nat) (h : HeaderInfo) :
    Tracks Globals.Sound (parseItemsG cfg fuel h) (parseItems cfg fuel h) (fun _ => Globals.Sound) := by
  induction fuel generalizing h with
  | zero => exact .fail (fun _ h => h) _ _
  | succ fuel ih =>
    unfold parseItemsG parseItems
    refine (Tracks.lift (fun _ h => h) _).bind fun _ => ?_
    exact .ite (fun _ => .pure (fun _ h => h) _ fun _ h => h) fun _ => (parseItem_tracks cfg h).bind fun _ => ih _

theorem parseHeaderG_eq (cfg : Cfg) (dict : Bytes) (g : Globals) (hg : g.Sound) :
    (parseHeaderG cfg dict g).1 = parseHeader cfg dict ∧ (parseHeaderG cfg dict g).2.Sound := by
  have ht : Tracks Globals.Sound (do
      GM.lift (readChar cfg 123)
      let h ← parseItemsG cfg (dict.length + 1) HeaderInfo.uninit
      GM.lift (readChar cfg 125)
      pure h : GM HeaderInfo) (do
      readChar cfg 123
      let h ← parseItems cfg (dict.length + 1) HeaderInfo.uninit
      readChar cfg 125
      pure h : IM HeaderInfo) (fun _ => Globals.Sound) := by
    refine (Tracks.lift (fun _ h => h) _).bind fun _ => (parseItems_tracks cfg _ _).bind fun _ => ?_
    exact (Tracks.lift (fun _ h => h) _).bind fun _ => .pure (fun _ h => h) _ fun _ h => h
  obtain ⟨h1, -, h3, -⟩ := ht (IStream.ofBytes dict) g hg
  exact ⟨h1, h3⟩

theorem globally_tracks (cfg : Cfg) (dict : Bytes) :
    Tracks Globals.Sound (GM.globally (parseHeaderG cfg dict)) (SM.lift (parseHeader cfg dict)) (fun _ => Globals.Sound) :=
  fun _ g hg => ⟨(parseHeaderG_eq cfg dict g hg).1, rfl, (parseHeaderG_eq cfg dict g hg).2, fun _ _ => (parseHeaderG_eq cfg dict g hg).2⟩

theorem readNpyHeader_tracks (cfg : Cfg) :
    Tracks Globals.Sound (readNpyHeaderG cfg) (readNpyHeader cfg) (fun _ => Globals.Sound) := by
  unfold readNpyHeaderG readNpyHeader
  refine (Tracks.lift (fun _ h => h) _).bind fun header => ?_
  have hd : ∀ n, Tracks Globals.Sound (do
      let dictionary ← GM.lift (readDictionary n)
      GM.globally (parseHeaderG cfg dictionary)) (do
      let dictionary ← readDictionary n
      SM.lift (parseHeader cfg dictionary)) (fun _ => Globals.Sound) :=
    fun n => (Tracks.lift (fun _ h => h) _).bind fun d => globally_tracks cfg d
  split
  · refine .ite (fun _ => .fail (fun _ h => h) _ _) fun _ => .ite (fun _ => hd _) fun _ => .ite (fun _ => ?_) fun _ => hd 0
    refine (Tracks.lift (fun _ h => h) _).bind fun extra => ?_
    split
    · exact hd _
    · rename_i hne
      split
      · exact (hne _ _ rfl).elim
      · exact .fail (fun _ h => h) _ _
  · rename_i hne
    generalize hX : (if cfg.ndebug = false ∧ List.take 6 header ≠ List.take (List.length header) MAGIC then SM.fail Err.abort
      else SM.fail Err.ub : GM HeaderInfo) = X
    split
    · exact (hne _ _ _ _ _ _ _ _ _ _ rfl).elim
    · subst hX
      exact .ite (fun _ => .fail (fun _ h => h) _ _) fun _ => .fail (fun _ h => h) _ _

theorem load_tracks {α : Type} (cfg : Cfg) (ops : ElemOps α) :
    Tracks Globals.Sound (loadG cfg ops) (load cfg ops) (fun _ => Globals.Sound) := by
  unfold loadG load
  exact (readNpyHeader_tracks cfg).bind fun _ => Tracks.lift (fun _ h => h) _

theorem Globals.initial_sound : Globals.initial.Sound := fun _ => rfl

theorem Globals.Reachable.sound {cfg : Cfg} {codec : Codec} {g : Globals} (h : g.Reachable cfg codec) : g.Sound := by
  induction h with
  | start => exact Globals.initial_sound
  | load α ops s _ ih => exact (load_tracks cfg ops s _ ih).2.2.1
  | peek s _ ih => exact (readNpyHeader_tracks cfg s _ ih).2.2.1
  | @fromDtype g s d _ ih =>
    intro k
    show (fromDtypeM (fromDtypeM g.map d).2 k).1 = _
    rw [fromDtypeM_stable]; exact ih k
  | @read g α ops r name _ ih =>
    unfold Reader.readG
    dsimp only
    split
    · exact ih
    · exact (load_tracks cfg ops _ _ ih).2.2.1
  | @peekFile g r name _ ih =>
    unfold Reader.peekG
    dsimp only
    split
    · exact ih
    · exact (readNpyHeader_tracks cfg _ _ ih).2.2.1

end Npy
