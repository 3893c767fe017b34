import Verif.Proofs.Header
/-! The header parser on arbitrary input: exhausted streams, termination. -/

namespace Npy

/-! ### Streams that are not good -/

theorem bad_setFail {s : IStream} : s.setFail.good = false := by simp [IStream.setFail, IStream.good]

theorem getc_bad {s : IStream} (h : s.good = false) : IStream.getc s = (.ok none, s.setFail) := by
  simp [IStream.getc, h]

theorem getUntil_bad {s : IStream} (h : s.good = false) (n : Nat) (d : Byte) :
    IStream.getUntil n d s = (.ok [], s.setFail) := by
  simp [IStream.getUntil, h]

theorem skipWhitespace_bad {s : IStream} (h : s.good = false) : skipWhitespace s = (.ok (), s.setFail) := by
  show skipWhitespaceAux (s.rest.length + 1) s = _
  rw [skipWhitespaceAux, SM.bind_ok (peek_bad h)]
  rfl

theorem readTo_bad {s : IStream} (h : s.good = false) (d : Byte) : readTo d s = (.ok [], s.setFail.setFail) := by
  unfold readTo
  rw [SM.bind_ok (peek_bad h)]
  exact getUntil_bad bad_setFail _ _

/-- The way a header that ends too early is refused. -/
def earlyEnd (cfg : Cfg) : Err := if cfg.ndebug then .throw (.runtimeError .unsupportedKey) else .ub

theorem readChar_none {cfg : Cfg} {s s' : IStream} (h : IStream.getc s = (.ok none, s')) (c : Byte) :
    readChar cfg c s = if cfg.ndebug then (.ok (), s') else (.error .ub, s') := by
  unfold readChar
  rw [SM.bind_ok h]
  simp only []
  split <;> rfl

theorem parseItem_bad (cfg : Cfg) (h : HeaderInfo) {s : IStream} (hb : s.good = false) :
    (parseItem cfg h s).1 = .error (earlyEnd cfg) := by
  unfold parseItem
  rw [SM.bind_ok (skipWhitespace_bad hb)]
  unfold readString earlyEnd
  cases hn : cfg.ndebug
  · have h1 := readChar_none (cfg := cfg) (getc_bad (bad_setFail (s := s))) 39
    rw [hn] at h1
    simp only [Bool.false_eq_true, if_false] at h1 ⊢
    rw [SM.bind_error (SM.bind_error h1)]
  · have h1 : ∀ (s : IStream) c, readChar cfg c s.setFail = (.ok (), s.setFail.setFail) := by
      intro s c
      rw [readChar_none (getc_bad (bad_setFail (s := s))) c, hn]; rfl
    have h2 : ((do readChar cfg 39; let token ← readTo 39; readChar cfg 39; pure token) : IM Bytes) s.setFail =
        (.ok [], s.setFail.setFail.setFail.setFail.setFail) := by
      rw [SM.bind_ok (h1 s 39), SM.bind_ok (readTo_bad bad_setFail 39), SM.bind_ok (h1 _ 39)]
      rfl
    rw [SM.bind_ok h2, SM.bind_ok (skipWhitespace_bad bad_setFail), SM.bind_ok (h1 _ 58),
      SM.bind_ok (skipWhitespace_bad bad_setFail)]
    have h3 : ∀ s, parseValue cfg h [] s = (.error (.throw (.runtimeError .unsupportedKey)), s) := by
      intro s
      unfold parseValue
      rw [if_neg (by decide), if_neg (by decide), if_neg (by decide)]
      rfl
    rw [SM.bind_error (h3 _)]
    rfl

theorem parseItems_bad (cfg : Cfg) (fuel : Nat) (h : HeaderInfo) {s : IStream} (hb : s.good = false) :
    (parseItems cfg (fuel + 1) h s).1 = .error (earlyEnd cfg) := by
  rw [parseItems, SM.bind_ok (peek_bad hb), if_neg (by simp)]
  have := parseItem_bad cfg h (s := s.setFail) bad_setFail
  match hp : parseItem cfg h s.setFail, this with
  | (.error e, s'), hh =>
    rw [SM.bind_error hp]
    exact hh

/-! ### Termination -/

/-- The call ends, and never puts bytes back. -/
def Tame {α : Type} (m : IM α) : Prop := ∀ s, (m s).1 ≠ .error .diverge ∧ (m s).2.rest.length ≤ s.rest.length

theorem Tame.bind {α β : Type} {x : IM α} {f : α → IM β} (hx : Tame x) (hf : ∀ a, Tame (f a)) : Tame (x >>= f) := by
  intro s
  have h1 := hx s
  match he : x s, h1 with
  | (.ok a, s'), h1 =>
    rw [SM.bind_ok he]
    have h2 := hf a s'
    exact ⟨h2.1, Nat.le_trans h2.2 h1.2⟩
  | (.error e, s'), h1 =>
    rw [SM.bind_error he]
    exact ⟨by simpa using h1.1, h1.2⟩

theorem Tame.pure {α : Type} (a : α) : Tame (Pure.pure a : IM α) := fun s => ⟨by simp, Nat.le_refl _⟩

theorem Tame.fail {α : Type} {e : Err} (h : e ≠ .diverge) : Tame (SM.fail e : IM α) :=
  fun s => ⟨by simpa using h, Nat.le_refl _⟩

theorem Tame.lift {α : Type} {x : Except Err α} (h : x ≠ .error .diverge) : Tame (SM.lift x : IM α) :=
  fun s => ⟨by simpa using h, Nat.le_refl _⟩

theorem Tame.ite {α : Type} {c : Prop} [Decidable c] {x y : IM α} (hx : Tame x) (hy : Tame y) :
    Tame (if c then x else y) := by split <;> assumption

theorem tame_getc : Tame IStream.getc := by
  intro s
  simp only [IStream.getc]
  split
  · split
    · simp [IStream.setEofFail]
    · rename_i h; simp [h]
  · simp [IStream.setFail]

theorem tame_peek : Tame IStream.peek := by
  intro s
  simp only [IStream.peek]
  split
  · split <;> simp
  · simp [IStream.setFail]

theorem tame_read (n : Nat) : Tame (IStream.read n) := by
  intro s
  simp only [IStream.read]
  split
  · split <;> simp
  · simp [IStream.setFail]

theorem getUntil_consumes (n : Nat) (d : Byte) (s : IStream) :
    ∃ tok, (IStream.getUntil n d s).1 = .ok tok ∧ tok.length + (IStream.getUntil n d s).2.rest.length = s.rest.length := by
  simp only [IStream.getUntil]
  split
  · refine ⟨_, rfl, ?_⟩
    have h1 : ((s.rest.take n).takeWhile (· != d)).length ≤ s.rest.length :=
      Nat.le_trans (List.takeWhile_sublist _).length_le (List.take_sublist _ _).length_le
    simp only [List.length_drop]
    omega
  · exact ⟨[], rfl, by simp [IStream.setFail]⟩

theorem tame_getUntil (n : Nat) (d : Byte) : Tame (IStream.getUntil n d) := by
  intro s
  obtain ⟨tok, h1, h2⟩ := getUntil_consumes n d s
  exact ⟨by rw [h1]; simp, by omega⟩

theorem tame_readChar (cfg : Cfg) (c : Byte) : Tame (readChar cfg c) := by
  unfold readChar
  refine tame_getc.bind fun a => ?_
  cases a with
  | none => exact .ite (.pure _) (.fail (by simp))
  | some b => exact .ite (.pure _) (.ite (.pure _) (.fail (by simp)))

theorem tame_readLit (cfg : Cfg) (l : Bytes) : Tame (readLit cfg l) := by
  unfold readLit
  refine (tame_read _).bind fun a => ?_
  exact .ite (.pure _) (.ite (.pure _) (.fail (by simp)))

theorem skipWhitespaceAux_tame (fuel : Nat) (s : IStream) (h : s.rest.length < fuel) :
    (skipWhitespaceAux fuel s).1 ≠ .error .diverge ∧ (skipWhitespaceAux fuel s).2.rest.length ≤ s.rest.length := by
  induction fuel generalizing s with
  | zero => omega
  | succ fuel ih =>
    rw [skipWhitespaceAux]
    cases hg : s.good
    · rw [SM.bind_ok (peek_bad hg)]
      simp [IStream.setFail]
    · match hr : s.rest with
      | [] =>
        have : s = s.withRest [] := by rw [← hr]; rfl
        rw [this, SM.bind_ok (IStream.peek_nil hg)]
        simp
      | b :: r =>
        have : s = s.withRest (b :: r) := by rw [← hr]; rfl
        rw [this, SM.bind_ok (IStream.peek_cons hg b r)]
        simp only []
        split
        · rw [SM.bind_ok (IStream.getc_cons hg b r)]
          have := ih (s.withRest r) (by rw [hr] at h; simp at h ⊢; omega)
          exact ⟨this.1, by simpa using Nat.le_succ_of_le this.2⟩
        · simp

theorem tame_skipWhitespace : Tame skipWhitespace := by
  intro s
  exact skipWhitespaceAux_tame (s.rest.length + 1) s (by omega)

theorem tame_readTo (d : Byte) : Tame (readTo d) := by
  unfold readTo
  refine tame_peek.bind fun a => ?_
  cases a with
  | none => exact tame_getUntil _ _
  | some c => exact .ite (.pure _) (tame_getUntil _ _)

/-- `readTo` removes the token it returns from the stream. -/
theorem readTo_consumes (d : Byte) (s : IStream) (tok : Bytes) (s' : IStream) (h : readTo d s = (.ok tok, s')) :
    tok.length + s'.rest.length ≤ s.rest.length := by
  unfold readTo at h
  obtain ⟨a, s1, h1, h2⟩ := SM.of_bind_ok h
  have hp := (tame_peek s).2
  rw [h1] at hp
  simp only at hp
  have hu : IStream.getUntil (BUFFER_SIZE - 1) d s1 = (.ok tok, s') → tok.length + s'.rest.length ≤ s.rest.length := by
    intro h3
    obtain ⟨t, h4, h5⟩ := getUntil_consumes (BUFFER_SIZE - 1) d s1
    rw [h3] at h4 h5
    simp only [Except.ok.injEq] at h4
    subst h4
    simp only at h5
    omega
  cases a with
  | none => exact hu h2
  | some c =>
    simp only [] at h2
    split at h2
    · simp only [SM.pure_apply, Prod.mk.injEq, Except.ok.injEq] at h2
      obtain ⟨rfl, rfl⟩ := h2
      simpa using hp
    · exact hu h2

theorem tame_readString (cfg : Cfg) : Tame (readString cfg) := by
  unfold readString
  exact (tame_readChar _ _).bind fun _ => (tame_readTo _).bind fun _ => (tame_readChar _ _).bind fun _ => .pure _

theorem readString_consumes (cfg : Cfg) (s : IStream) (tok : Bytes) (s' : IStream)
    (h : readString cfg s = (.ok tok, s')) : tok.length + s'.rest.length ≤ s.rest.length := by
  unfold readString at h
  obtain ⟨_, s1, h1, h2⟩ := SM.of_bind_ok h
  obtain ⟨t, s2, h3, h4⟩ := SM.of_bind_ok h2
  obtain ⟨_, s3, h5, h6⟩ := SM.of_bind_ok h4
  simp only [SM.pure_apply, Prod.mk.injEq, Except.ok.injEq] at h6
  obtain ⟨rfl, rfl⟩ := h6
  have a1 := (tame_readChar cfg 39 s).2
  have a2 := readTo_consumes 39 s1 t s2 h3
  have a3 := (tame_readChar cfg 39 s2).2
  rw [h1] at a1
  rw [h5] at a3
  simp only at a1 a3
  omega

theorem tame_readBool (cfg : Cfg) : Tame (readBool cfg) := by
  unfold readBool
  refine tame_peek.bind fun a => .ite ?_ ?_
  · exact (tame_readLit _ _).bind fun _ => .pure _
  · refine tame_peek.bind fun a => .ite ?_ ?_
    · exact (tame_readLit _ _).bind fun _ => .pure _
    · exact .fail (by simp)

/-- A successful extraction of a number removes at least one digit. -/
theorem extractSize_consumes (s : IStream) :
    (IStream.extractSize s).2.rest.length ≤ s.rest.length ∧
    ((∃ n, (IStream.extractSize s).1 = .ok (some n)) → (IStream.extractSize s).2.rest.length < s.rest.length) ∧
    (∃ o, (IStream.extractSize s).1 = .ok o) := by
  have hdw : ∀ (p : Byte → Bool) (l : Bytes), (l.dropWhile p).length ≤ l.length :=
    fun p l => (List.dropWhile_sublist p).length_le
  have hsum : ∀ (p : Byte → Bool) (l : Bytes), (l.takeWhile p).length + (l.dropWhile p).length = l.length := by
    intro p l
    rw [← List.length_append, List.takeWhile_append_dropWhile]
  simp only [IStream.extractSize]
  split
  · match hr : s.rest.dropWhile isSpace with
    | [] => simp
    | c :: r' =>
      have h1 := hdw isSpace s.rest
      rw [hr] at h1
      simp only [List.length_cons] at h1
      simp only []
      generalize hr1 : (if (c == 45 || c == 43) = true then r' else c :: r') = r1
      have h2 : r1.length ≤ s.rest.length := by
        rw [← hr1]
        split
        · omega
        · simp only [List.length_cons]; omega
      have h3 := hsum isDigit r1
      by_cases hd : (r1.takeWhile isDigit).isEmpty = true
      · simp only [hd, if_true]
        refine ⟨?_, ?_, ⟨_, rfl⟩⟩
        · simp only [IStream.setFail]; omega
        · rintro ⟨n, hn⟩; simp at hn
      · have h4 : 0 < (r1.takeWhile isDigit).length := by
          rw [List.length_pos_iff]; simpa using hd
        rw [if_neg hd]
        by_cases hv : decValue (r1.takeWhile isDigit) < SIZE
        · rw [if_pos hv]
          exact ⟨by simp only; omega, fun _ => by simp only; omega, ⟨_, rfl⟩⟩
        · rw [if_neg hv]
          refine ⟨by simp only [IStream.setFail]; omega, ?_, ⟨_, rfl⟩⟩
          rintro ⟨n, hn⟩; simp at hn
  · refine ⟨by simp [IStream.setFail], ?_, ⟨_, rfl⟩⟩
    rintro ⟨n, hn⟩; simp at hn

theorem readShapeLoop_tame (cfg : Cfg) (fuel : Nat) (acc : List Nat) (s : IStream) (h : s.rest.length < fuel) :
    (readShapeLoop cfg fuel acc s).1 ≠ .error .diverge := by
  induction fuel generalizing acc s with
  | zero => omega
  | succ fuel ih =>
    rw [readShapeLoop]
    obtain ⟨_, h1, o, h2⟩ := extractSize_consumes s
    match he : IStream.extractSize s with
    | (r, s1) =>
      rw [he] at h1 h2
      simp only at h1 h2
      subst h2
      rw [SM.bind_ok he]
      cases o with
      | none => simp
      | some n =>
        have h3 := h1 ⟨n, rfl⟩
        simp only []
        have h4 := tame_peek s1
        match hp : IStream.peek s1, h4 with
        | (.error e, s2), h4 => rw [SM.bind_error hp]; simpa using h4.1
        | (.ok a, s2), h4 =>
          rw [SM.bind_ok hp]
          simp only at h4
          split
          · have h5 := tame_readChar cfg 44 s2
            match hq : readChar cfg 44 s2, h5 with
            | (.error e, s3), h5 => rw [SM.bind_error hq]; simpa using h5.1
            | (.ok _, s3), h5 =>
              rw [SM.bind_ok hq]
              simp only at h5
              have h6 := tame_skipWhitespace s3
              match hw : skipWhitespace s3, h6 with
              | (.error e, s4), h6 => rw [SM.bind_error hw]; simpa using h6.1
              | (.ok _, s4), h6 =>
                rw [SM.bind_ok hw]
                simp only at h6
                exact ih _ _ (by omega)
          · exact ih _ _ (by omega)

theorem tame_readShape (cfg : Cfg) : Tame (readShape cfg) := by
  unfold readShape
  refine (tame_readChar _ _).bind fun _ => (tame_readTo _).bind fun text => (tame_readChar _ _).bind fun _ => .lift ?_
  exact readShapeLoop_tame cfg _ _ _ (by simp)

theorem setDescr_ne_diverge (h : HeaderInfo) (code : Bytes) : setDescr h code ≠ .error .diverge := by
  unfold setDescr
  split
  · simp
  · split
    · rename_i c0 rest _
      have : ∀ t e, stoi t = .error e → e ≠ .diverge := by
        intro t e he
        unfold stoi at he
        have aux : ∀ (p : Prop) [Decidable p] (q : Prop) [Decidable q] (v : Int),
            (if p then .error (.throw (.invalidArgument .std))
              else if q then .error (.throw (.outOfRange .std)) else .ok v : Except Err Int) = .error e →
            e ≠ .diverge := by
          intro p _ q _ v hv
          split at hv
          · cases hv; simp
          · split at hv
            · cases hv; simp
            · cases hv
        exact aux _ _ _ he
      split
      · simp
      · rename_i e he
        simpa using this _ _ he
    · simp

theorem tame_parseValue (cfg : Cfg) (h : HeaderInfo) (key : Bytes) : Tame (parseValue cfg h key) := by
  unfold parseValue
  refine .ite ?_ (.ite ?_ (.ite ?_ (.fail (by simp))))
  · exact (tame_readString _).bind fun code => .lift (setDescr_ne_diverge h code)
  · exact (tame_readBool _).bind fun _ => .pure _
  · exact (tame_readShape _).bind fun _ => .pure _

theorem tame_parseItem (cfg : Cfg) (h : HeaderInfo) : Tame (parseItem cfg h) := by
  unfold parseItem
  exact tame_skipWhitespace.bind fun _ => (tame_readString _).bind fun _ => tame_skipWhitespace.bind fun _ =>
    (tame_readChar _ _).bind fun _ => tame_skipWhitespace.bind fun _ => (tame_parseValue _ _ _).bind fun _ =>
    (tame_readChar _ _).bind fun _ => tame_skipWhitespace.bind fun _ => .pure _

theorem tame_ok {α : Type} {m : IM α} (hm : Tame m) {s s' : IStream} {a : α} (h : m s = (.ok a, s')) :
    s'.rest.length ≤ s.rest.length := by
  have := (hm s).2
  rwa [h] at this

theorem parseValue_empty (cfg : Cfg) (h : HeaderInfo) (s : IStream) :
    parseValue cfg h [] s = (.error (.throw (.runtimeError .unsupportedKey)), s) := by
  unfold parseValue
  rw [if_neg (by decide), if_neg (by decide), if_neg (by decide)]
  rfl

/-- A successful iteration removes at least one byte. -/
theorem parseItem_consumes (cfg : Cfg) (h h' : HeaderInfo) (s s' : IStream) (hp : parseItem cfg h s = (.ok h', s')) :
    s'.rest.length < s.rest.length := by
  unfold parseItem at hp
  obtain ⟨_, s1, h1, hp⟩ := SM.of_bind_ok hp
  obtain ⟨key, s2, h2, hp⟩ := SM.of_bind_ok hp
  obtain ⟨_, s3, h3, hp⟩ := SM.of_bind_ok hp
  obtain ⟨_, s4, h4, hp⟩ := SM.of_bind_ok hp
  obtain ⟨_, s5, h5, hp⟩ := SM.of_bind_ok hp
  obtain ⟨v, s6, h6, hp⟩ := SM.of_bind_ok hp
  obtain ⟨_, s7, h7, hp⟩ := SM.of_bind_ok hp
  obtain ⟨_, s8, h8, hp⟩ := SM.of_bind_ok hp
  simp only [SM.pure_apply, Prod.mk.injEq, Except.ok.injEq] at hp
  obtain ⟨rfl, rfl⟩ := hp
  have a1 := tame_ok tame_skipWhitespace h1
  have a2 := readString_consumes cfg s1 key s2 h2
  have a3 := tame_ok tame_skipWhitespace h3
  have a4 := tame_ok (tame_readChar _ _) h4
  have a5 := tame_ok tame_skipWhitespace h5
  have a6 := tame_ok (tame_parseValue _ _ _) h6
  have a7 := tame_ok (tame_readChar _ _) h7
  have a8 := tame_ok tame_skipWhitespace h8
  match key with
  | [] => rw [parseValue_empty] at h6; simp at h6
  | c :: k => simp only [List.length_cons] at a2; omega

/-- The loop over the items ends within the fuel. -/
theorem parseItems_terminates (cfg : Cfg) (fuel : Nat) (h : HeaderInfo) (s : IStream) (hs : s.rest.length < fuel) :
    (parseItems cfg fuel h s).1 ≠ .error .diverge := by
  induction fuel generalizing h s with
  | zero => omega
  | succ fuel ih =>
    rw [parseItems]
    have h1 := tame_peek s
    match hp : IStream.peek s, h1 with
    | (.error e, s1), h1 => rw [SM.bind_error hp]; simpa using h1.1
    | (.ok a, s1), h1 =>
      rw [SM.bind_ok hp]
      simp only at h1
      split
      · simp
      · have h2 := tame_parseItem cfg h s1
        match hi : parseItem cfg h s1, h2 with
        | (.error e, s2), h2 => rw [SM.bind_error hi]; simpa using h2.1
        | (.ok h', s2), _ =>
          rw [SM.bind_ok hi]
          have := parseItem_consumes cfg h h' s1 s2 hi
          exact ih _ _ (by omega)

/-- More fuel changes nothing once the loop ends. -/
theorem parseItems_fuel (cfg : Cfg) (fuel k : Nat) (h : HeaderInfo) (s : IStream)
    (hd : (parseItems cfg fuel h s).1 ≠ .error .diverge) :
    parseItems cfg (fuel + k) h s = parseItems cfg fuel h s := by
  induction fuel generalizing h s with
  | zero => simp [parseItems] at hd
  | succ fuel ih =>
    rw [Nat.succ_add, parseItems, parseItems]
    rw [parseItems] at hd
    match hp : IStream.peek s with
    | (.error e, s1) => rw [SM.bind_error hp, SM.bind_error hp]
    | (.ok a, s1) =>
      rw [SM.bind_ok hp, SM.bind_ok hp]
      rw [SM.bind_ok hp] at hd
      split
      · rfl
      · rename_i hc
        rw [if_neg hc] at hd
        match hi : parseItem cfg h s1 with
        | (.error e, s2) => rw [SM.bind_error hi, SM.bind_error hi]
        | (.ok h', s2) =>
          rw [SM.bind_ok hi] at hd ⊢
          rw [SM.bind_ok hi]
          exact ih _ _ hd

end Npy
