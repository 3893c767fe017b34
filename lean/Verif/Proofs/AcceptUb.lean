import Verif.Proofs.Accept
/-! The header parser without asserts: when the outcome is undefined, and when it throws. -/

namespace Npy
open Spec (White IsNumeral Field WhiteChar Mark Token ValueRead BeginsDark ItemsRead DictRead DescrRead DescrsFine NoDescr EmptyDescr)

variable {s s' : IStream}

/-! ### Streams that are not good, without asserts -/

theorem rel_char {cfg : Cfg} (hn : cfg.ndebug = true) (c : Byte) (s : IStream) : ∃ s', readChar cfg c s = (.ok (), s') := by
  unfold readChar
  match h : IStream.getc s with
  | (.ok (some a), s1) => rw [SM.bind_ok h]; exact ⟨s1, by simp [hn]⟩
  | (.ok none, s1) => rw [SM.bind_ok h]; exact ⟨s1, by simp [hn]⟩
  | (.error e, s1) =>
    exfalso
    simp only [IStream.getc] at h
    split at h
    · split at h <;> simp at h
    · simp at h

theorem rel_char_bad {cfg : Cfg} (hn : cfg.ndebug = true) (c : Byte) (hb : s.good = false) :
    ∃ s', readChar cfg c s = (.ok (), s') ∧ s'.good = false := by
  rw [readChar_none (getc_bad hb), if_pos hn]
  exact ⟨_, rfl, bad_setFail⟩

theorem rel_char_end {cfg : Cfg} (hn : cfg.ndebug = true) (c : Byte) (hs : s.good = true) :
    ∃ s', readChar cfg c (s.withRest []) = (.ok (), s') ∧ s'.good = false := by
  rw [readChar_none (IStream.getc_nil hs), if_pos hn]
  exact ⟨_, rfl, by simp [IStream.good, IStream.setEofFail]⟩

theorem skip_bad (hb : s.good = false) : ∃ s', skipWhitespace s = (.ok (), s') ∧ s'.good = false :=
  ⟨_, skipWhitespace_bad hb, bad_setFail⟩

theorem skip_end {w : Bytes} (hs : s.good = true) (hw : White w) :
    ∃ s', skipWhitespace (s.withRest w) = (.ok (), s') ∧ s'.good = false :=
  ⟨_, skipWhitespace_end hs w (white_isSpace hw), by simp [IStream.good]⟩

/-- After white space the text goes on or ends. -/
theorem skip_cases (text : Bytes) (hs : s.good = true) : ∃ ws r, text = ws ++ r ∧ White ws ∧
    ((r = [] ∧ ∃ s', skipWhitespace (s.withRest text) = (.ok (), s') ∧ s'.good = false) ∨
     (BeginsDark r ∧ skipWhitespace (s.withRest text) = (.ok (), s.withRest r))) := by
  obtain ⟨ws, r, rfl, hw, hsp, -⟩ := split_white text
  refine ⟨ws, r, rfl, hw, ?_⟩
  rcases hsp with rfl | hsp
  · rw [List.append_nil]; exact .inl ⟨rfl, skip_end hs hw⟩
  · exact .inr ⟨(beginsDark_iff r).2 hsp, skip_read hs hw ((beginsDark_iff r).2 hsp)⟩

theorem rel_string_bad {cfg : Cfg} (hn : cfg.ndebug = true) (hb : s.good = false) :
    ∃ s', readString cfg s = (.ok [], s') ∧ s'.good = false := by
  unfold readString
  obtain ⟨s1, h1, b1⟩ := rel_char_bad hn 39 hb
  obtain ⟨s3, h3, b3⟩ := rel_char_bad hn 39 (s := s1.setFail.setFail) bad_setFail
  rw [SM.bind_ok h1, SM.bind_ok (readTo_bad b1 39), SM.bind_ok h3]
  exact ⟨s3, rfl, b3⟩

/-- What can happen when a string is read: the text ends before the token, in it, or it is there. -/
theorem rel_string {cfg : Cfg} (hn : cfg.ndebug = true) (text : Bytes) (hs : s.good = true) :
    ((text = [] ∨ ∃ q, text = [q]) ∧ ∃ s', readString cfg (s.withRest text) = (.ok [], s') ∧ s'.good = false) ∨
    (∃ q tok s', text = q :: tok ∧ tok ≠ [] ∧ 39 ∉ tok ∧ readString cfg (s.withRest text) = (.ok tok, s') ∧ s'.good = false) ∨
    (∃ q tok q' r, text = q :: (tok ++ q' :: r) ∧ Token 39 tok q' ∧ readString cfg (s.withRest text) = (.ok tok, s.withRest r)) := by
  have hM : ∀ a b : Byte, Mark (!cfg.ndebug) a b := fun a b => by simp [Mark, hn]
  match text with
  | [] =>
    left
    refine ⟨.inl rfl, ?_⟩
    obtain ⟨s1, h1, b1⟩ := rel_char_end hn 39 hs
    obtain ⟨s3, h3, b3⟩ := rel_char_bad hn 39 (s := s1.setFail.setFail) bad_setFail
    unfold readString
    rw [SM.bind_ok h1, SM.bind_ok (readTo_bad b1 39), SM.bind_ok h3]
    exact ⟨s3, rfl, b3⟩
  | [q] =>
    left
    refine ⟨.inr ⟨q, rfl⟩, ?_⟩
    unfold readString
    rw [SM.bind_ok (char_read cfg hs (hM 39 q) [])]
    have h2 : readTo 39 (s.withRest []) = (.ok [], ({ s.withRest [] with eof := true } : IStream).setFail) := by
      unfold readTo
      rw [SM.bind_ok (IStream.peek_nil hs)]
      exact getUntil_bad (by simp [IStream.good]) _ _
    obtain ⟨s3, h3, b3⟩ := rel_char_bad hn 39 (s := ({ s.withRest [] with eof := true } : IStream).setFail) bad_setFail
    rw [SM.bind_ok h2, SM.bind_ok h3]
    exact ⟨s3, rfl, b3⟩
  | q :: b :: rest =>
    right
    obtain ⟨tok, s2, h2⟩ : ∃ tok s2, readTo 39 (s.withRest (b :: rest)) = (.ok tok, s2) := by
      unfold readTo
      rw [SM.bind_ok (IStream.peek_cons hs b rest)]
      simp only []
      split
      · exact ⟨_, _, rfl⟩
      · simp only [IStream.getUntil, IStream.withRest_good, hs, if_true]
        exact ⟨_, _, rfl⟩
    cases hg : s2.good
    · left
      have hb : b ≠ 39 := by
        rintro rfl
        unfold readTo at h2
        rw [SM.bind_ok (IStream.peek_cons hs 39 rest)] at h2
        simp only [if_true, SM.pure_apply, Prod.mk.injEq] at h2
        rw [← h2.2] at hg
        rw [IStream.withRest_good, hs] at hg
        simp at hg
      have htok : tok = b :: rest ∧ 39 ∉ tok ∧ tok ≠ [] := by
        have h3 := h2
        unfold readTo at h3
        rw [SM.bind_ok (IStream.peek_cons hs b rest)] at h3
        simp only [hb, if_false] at h3
        simp only [IStream.getUntil, IStream.withRest_good, hs, if_true, IStream.withRest_rest, Prod.mk.injEq, Except.ok.injEq] at h3
        obtain ⟨e1, e2⟩ := h3
        have hne : tok ≠ [] := by
          rw [← e1]
          have hB : BUFFER_SIZE - 1 = 65534 + 1 := rfl
          rw [hB, List.take_succ_cons, List.takeWhile_cons, if_pos (by simpa using hb)]
          simp
        rw [e1] at e2
        have h39 : 39 ∉ tok := by
          intro hd
          rw [← e1] at hd
          simpa using List.mem_takeWhile_imp hd
        refine ⟨?_, h39, hne⟩
        obtain ⟨u, hu⟩ : tok <+: b :: rest := by rw [← e1]; exact (List.takeWhile_prefix _).trans (List.take_prefix _ _)
        rw [← hu, List.drop_left] at e2
        obtain ⟨he, hf⟩ := (IStream.good_iff s).1 hs
        match u with
        | [] => rw [← hu]; simp
        | q :: u =>
          rw [← e2] at hg
          simp [IStream.good, hne] at hg
      obtain ⟨s3, h3, b3⟩ := rel_char_bad hn 39 hg
      refine ⟨q, b :: rest, s3, rfl, by simp, htok.1 ▸ htok.2.1, ?_, b3⟩
      unfold readString
      rw [SM.bind_ok (char_read cfg hs (hM 39 q) _), SM.bind_ok h2, SM.bind_ok h3, ← htok.1]
      rfl
    · right
      obtain ⟨q', r, heq, ht, rfl⟩ := to_inv hs h2 hg
      refine ⟨q, tok, q', r, by rw [heq], ht, ?_⟩
      rw [heq]
      exact string_read cfg hs (hM _ _) (hM _ _) ht r

/-! ### Which errors -/

/-- Fails only by an exception. -/
def Throws {α : Type} (m : IM α) : Prop := ∀ s e, (m s).1 = .error e → ∃ x, e = .throw x

theorem readBool_throws {cfg : Cfg} (hn : cfg.ndebug = true) : Throws (readBool cfg) := by
  have hl : ∀ l s, ∃ s', readLit cfg l s = (.ok (), s') := by
    intro l s
    unfold readLit
    obtain ⟨a, s1, h⟩ : ∃ a s1, IStream.read l.length s = (.ok a, s1) := by
      simp only [IStream.read]
      split
      · split <;> exact ⟨_, _, rfl⟩
      · exact ⟨_, _, rfl⟩
    rw [SM.bind_ok h]
    exact ⟨s1, by simp [hn]⟩
  have hp : ∀ s, ∃ a s', IStream.peek s = (.ok a, s') := by
    intro s
    simp only [IStream.peek]
    split
    · split <;> exact ⟨_, _, rfl⟩
    · exact ⟨_, _, rfl⟩
  intro s e he
  unfold readBool at he
  obtain ⟨a, s1, h1⟩ := hp s
  rw [SM.bind_ok h1] at he
  split at he
  · obtain ⟨s2, h2⟩ := hl b!"True" s1
    rw [SM.bind_ok h2] at he
    simp at he
  · obtain ⟨a2, s2, h2⟩ := hp s1
    rw [SM.bind_ok h2] at he
    split at he
    · obtain ⟨s3, h3⟩ := hl b!"False" s2
      rw [SM.bind_ok h3] at he
      simp at he
    · simp only [SM.fail_apply, Except.error.injEq] at he
      exact ⟨_, he.symm⟩

theorem rel_to (d : Byte) (s : IStream) : ∃ tok s', readTo d s = (.ok tok, s') := by
  unfold readTo
  obtain ⟨a, s1, h1⟩ : ∃ a s', IStream.peek s = (.ok a, s') := by
    simp only [IStream.peek]
    split
    · split <;> exact ⟨_, _, rfl⟩
    · exact ⟨_, _, rfl⟩
  have hu : ∃ tok s', IStream.getUntil (BUFFER_SIZE - 1) d s1 = (.ok tok, s') := by
    simp only [IStream.getUntil]
    split <;> exact ⟨_, _, rfl⟩
  rw [SM.bind_ok h1]
  match a with
  | none => exact hu
  | some c =>
    simp only []
    split
    · exact ⟨_, _, rfl⟩
    · exact hu

theorem rel_shape {cfg : Cfg} (hn : cfg.ndebug = true) (s : IStream) : ∃ ns s', readShape cfg s = (.ok ns, s') := by
  unfold readShape
  obtain ⟨s1, h1⟩ := rel_char hn 40 s
  obtain ⟨tok, s2, h2⟩ := rel_to 41 s1
  obtain ⟨s3, h3⟩ := rel_char hn 41 s2
  obtain ⟨ns, hns⟩ := shapeRead_total tok
  rw [SM.bind_ok h1, SM.bind_ok h2, SM.bind_ok h3, SM.lift_apply, (readShapeLoop_iff cfg tok ns).2 hns]
  exact ⟨ns, s3, rfl⟩

theorem rel_string_total {cfg : Cfg} (hn : cfg.ndebug = true) (s : IStream) : ∃ tok s', readString cfg s = (.ok tok, s') := by
  unfold readString
  obtain ⟨s1, h1⟩ := rel_char hn 39 s
  obtain ⟨tok, s2, h2⟩ := rel_to 39 s1
  obtain ⟨s3, h3⟩ := rel_char hn 39 s2
  rw [SM.bind_ok h1, SM.bind_ok h2, SM.bind_ok h3]
  exact ⟨tok, s3, rfl⟩

/-- A value without asserts: undefined only for an empty `descr`. -/
theorem value_error {cfg : Cfg} (hn : cfg.ndebug = true) {h : HeaderInfo} {key : Bytes} {s s' : IStream} {e : Err}
    (hr : parseValue cfg h key s = (.error e, s')) :
    (∃ x, e = .throw x) ∨ (e = .ub ∧ key = b!"descr" ∧ ∃ s', readString cfg s = (.ok [], s')) := by
  unfold parseValue at hr
  split at hr
  · rename_i hk
    obtain ⟨code, s1, h1⟩ := rel_string_total hn s
    rw [SM.bind_ok h1, SM.lift_apply] at hr
    obtain ⟨e1, -⟩ := Prod.mk.inj hr
    rcases setDescr_cases code with ⟨t, e', m, _, hh⟩ | ⟨rfl, hh⟩ | ⟨_, x, hh⟩
    · rw [hh h] at e1; simp at e1
    · rw [hh h] at e1
      simp only [Except.error.injEq] at e1
      exact .inr ⟨e1.symm, hk, s1, h1⟩
    · rw [hh h] at e1
      simp only [Except.error.injEq] at e1
      exact .inl ⟨x, e1.symm⟩
  · split at hr
    · left
      match hb : readBool cfg s with
      | (.ok x, s1) => rw [SM.bind_ok hb] at hr; simp at hr
      | (.error e', s1) =>
        rw [SM.bind_error hb] at hr
        obtain ⟨e1, -⟩ := Prod.mk.inj hr
        simp only [Except.error.injEq] at e1
        subst e1
        exact readBool_throws hn s e' (by rw [hb])
    · split at hr
      · obtain ⟨ns, s1, h1⟩ := rel_shape hn s
        rw [SM.bind_ok h1] at hr
        simp at hr
      · obtain ⟨e1, -⟩ := Prod.mk.inj hr
        simp only [Except.error.injEq] at e1
        exact .inl ⟨_, e1.symm⟩

theorem rel_skip (s : IStream) : ∃ s', skipWhitespace s = (.ok (), s') := by
  cases hb : s.good
  · exact ⟨_, skipWhitespace_bad hb⟩
  · obtain ⟨ws, r, _, _, h⟩ := skip_cases s.rest hb
    rw [IStream.withRest_self] at h
    rcases h with ⟨_, s', h, _⟩ | ⟨_, h⟩
    · exact ⟨s', h⟩
    · exact ⟨_, h⟩

/-- Without asserts nothing but the value of an item fails. -/
theorem item_run {cfg : Cfg} (hn : cfg.ndebug = true) (h : HeaderInfo) {key : Bytes} {s s1 s2 s3 s4 s5 : IStream}
    (h1 : skipWhitespace s = (.ok (), s1)) (h2 : readString cfg s1 = (.ok key, s2)) (h3 : skipWhitespace s2 = (.ok (), s3))
    (h4 : readChar cfg 58 s3 = (.ok (), s4)) (h5 : skipWhitespace s4 = (.ok (), s5)) :
    (parseItem cfg h s).1 = (parseValue cfg h key s5).1 := by
  unfold parseItem
  rw [SM.bind_ok h1, SM.bind_ok h2, SM.bind_ok h3, SM.bind_ok h4, SM.bind_ok h5]
  match h6 : parseValue cfg h key s5 with
  | (.ok h', s6) =>
    obtain ⟨s7, h7⟩ := rel_char hn 44 s6
    obtain ⟨s8, h8⟩ := rel_skip s7
    rw [SM.bind_ok h6, SM.bind_ok h7, SM.bind_ok h8]
    rfl
  | (.error e, s6) => rw [SM.bind_error h6]

/-- An item without asserts: it throws, or is undefined for a `descr` without a value. -/
theorem item_error {cfg : Cfg} (hn : cfg.ndebug = true) {h : HeaderInfo} {text : Bytes} {e : Err} (hs : s.good = true)
    (hr : (parseItem cfg h (s.withRest text)).1 = .error e) :
    (∃ x, e = .throw x) ∨ (e = .ub ∧ ∃ w q z, text = w ++ q :: (b!"descr" ++ z) ∧ White w ∧ ¬WhiteChar q ∧ NoDescr z) := by
  have hM : ∀ a b : Byte, Mark (!cfg.ndebug) a b := fun a b => by simp [Mark, hn]
  have run : ∀ key s1 s2 s3 s4 s5, skipWhitespace (s.withRest text) = (.ok (), s1) → readString cfg s1 = (.ok key, s2) →
      skipWhitespace s2 = (.ok (), s3) → readChar cfg 58 s3 = (.ok (), s4) → skipWhitespace s4 = (.ok (), s5) →
      (∃ x, e = .throw x) ∨ (e = .ub ∧ key = b!"descr" ∧ ∃ s', readString cfg s5 = (.ok [], s')) := by
    intro key s1 s2 s3 s4 s5 h1 h2 h3 h4 h5
    rw [item_run hn h h1 h2 h3 h4 h5] at hr
    exact value_error hn (Prod.ext hr rfl)
  obtain ⟨w, r1, rfl, hw, hc1⟩ := skip_cases text hs
  rcases hc1 with ⟨_, s1, h1, b1⟩ | ⟨hd, h1⟩
  · obtain ⟨s2, h2, b2⟩ := rel_string_bad hn b1
    obtain ⟨s3, h3⟩ := rel_skip s2
    obtain ⟨s4, h4⟩ := rel_char hn 58 s3
    obtain ⟨s5, h5⟩ := rel_skip s4
    rcases run _ _ _ _ _ _ h1 h2 h3 h4 h5 with hx | ⟨_, hk, _⟩
    · exact .inl hx
    · simp at hk
  · obtain ⟨q, r1', rfl, hq⟩ := hd
    rcases rel_string hn (q :: r1') hs with ⟨_, s2, h2, b2⟩ | ⟨q0, tok, s2, heq, hne, _, h2, b2⟩ | ⟨q0, tok, q', r2, heq, ht, h2⟩
    · obtain ⟨s3, h3⟩ := rel_skip s2
      obtain ⟨s4, h4⟩ := rel_char hn 58 s3
      obtain ⟨s5, h5⟩ := rel_skip s4
      rcases run _ _ _ _ _ _ h1 h2 h3 h4 h5 with hx | ⟨_, hk, _⟩
      · exact .inl hx
      · simp at hk
    · obtain ⟨s3, h3⟩ := rel_skip s2
      obtain ⟨s4, h4⟩ := rel_char hn 58 s3
      obtain ⟨s5, h5⟩ := rel_skip s4
      rcases run _ _ _ _ _ _ h1 h2 h3 h4 h5 with hx | ⟨he, hk, _⟩
      · exact .inl hx
      · obtain ⟨rfl, rfl⟩ := List.cons.inj heq
        subst hk
        exact .inr ⟨he, w, q, [], by simp, hw, hq, .quote⟩
    · obtain ⟨rfl, rfl⟩ := List.cons.inj heq
      obtain ⟨w2, r3, rfl, hw2, hc2⟩ := skip_cases r2 hs
      -- the key decides that the token is closed by a quote
      have close : tok = b!"descr" → q' = 39 := by
        rintro rfl
        rcases ht.2.2 with h | h
        · exact h
        · simp at h
      rcases hc2 with ⟨rfl, s3, h3, b3⟩ | ⟨hd3, h3⟩
      · obtain ⟨s4, h4⟩ := rel_char hn 58 s3
        obtain ⟨s5, h5⟩ := rel_skip s4
        rcases run _ _ _ _ _ _ h1 h2 h3 h4 h5 with hx | ⟨he, hk, _⟩
        · exact .inl hx
        · have := close hk
          subst hk this
          exact .inr ⟨he, w, q, 39 :: w2, by simp, hw, hq, .colon hw2⟩
      · obtain ⟨c, r4, rfl, hc⟩ := hd3
        have h4 := char_read cfg hs (hM 58 c) r4
        obtain ⟨w3, r5, rfl, hw3, hc3⟩ := skip_cases r4 hs
        rcases hc3 with ⟨rfl, s5, h5, b5⟩ | ⟨hd5, h5⟩
        · rcases run _ _ _ _ _ _ h1 h2 h3 h4 h5 with hx | ⟨he, hk, _⟩
          · exact .inl hx
          · have := close hk
            subst hk this
            exact .inr ⟨he, w, q, 39 :: (w2 ++ c :: w3), by simp, hw, hq, .value hw2 hc hw3⟩
        · obtain ⟨q5, r6, rfl, hq5⟩ := hd5
          rcases run _ _ _ _ _ _ h1 h2 h3 h4 h5 with hx | ⟨he, hk, s6, h6⟩
          · exact .inl hx
          · have := close hk
            subst hk this
            rcases rel_string hn (q5 :: r6) hs with ⟨hh, -⟩ | ⟨q0, tok, s7, heq, hne, _, h7, _⟩ | ⟨q0, tok, q7, r7, heq, ht7, h7⟩
            · rcases hh with hh | ⟨q0, hh⟩
              · simp at hh
              · obtain ⟨rfl, rfl⟩ := List.cons.inj hh
                exact .inr ⟨he, w, q, 39 :: (w2 ++ c :: (w3 ++ [q5])), by simp, hw, hq, .opened hw2 hc hw3 hq5⟩
            · rw [h6] at h7
              simp only [Prod.mk.injEq, Except.ok.injEq] at h7
              exact absurd h7.1.symm hne
            · rw [h6] at h7
              simp only [Prod.mk.injEq, Except.ok.injEq] at h7
              obtain ⟨rfl, rfl⟩ := List.cons.inj heq
              obtain ⟨rfl, -⟩ := h7
              have hq7 : q7 = 39 := by
                rcases ht7.2.2 with h | h
                · exact h
                · simp at h
              subst hq7
              exact .inr ⟨he, w, q, 39 :: (w2 ++ c :: (w3 ++ q5 :: 39 :: r7)), by simp, hw, hq, .empty hw2 hc hw3 hq5⟩

theorem descr_ub {cfg : Cfg} {h : HeaderInfo} {s s' : IStream} (hr : readString cfg s = (.ok [], s')) :
    (parseValue cfg h b!"descr" s).1 = .error .ub := by
  unfold parseValue
  rw [if_pos rfl, SM.bind_ok hr]
  rfl

/-- A `descr` without a value is undefined. -/
theorem item_ub {cfg : Cfg} (hn : cfg.ndebug = true) (h : HeaderInfo) {w z : Bytes} {q : Byte} (hs : s.good = true) (hw : White w)
    (hq : ¬WhiteChar q) (hz : NoDescr z) : (parseItem cfg h (s.withRest (w ++ q :: (b!"descr" ++ z)))).1 = .error .ub := by
  have hM : ∀ a b : Byte, Mark (!cfg.ndebug) a b := fun a b => by simp [Mark, hn]
  have h1 := skip_read (r := q :: (b!"descr" ++ z)) hs hw (dark_cons hq)
  -- from a stream that is not good on
  have bad : ∀ s5 : IStream, s5.good = false → ∃ s6, readString cfg s5 = (.ok [], s6) := fun s5 b =>
    let ⟨s6, h6, _⟩ := rel_string_bad hn b; ⟨s6, h6⟩
  have hstr : ∀ r, readString cfg (s.withRest (q :: (b!"descr" ++ 39 :: r))) = (.ok b!"descr", s.withRest r) := fun r =>
    string_read cfg hs (hM _ _) (fun _ => rfl) ⟨by decide, by decide, .inl rfl⟩ r
  cases hz with
  | quote =>
    rcases rel_string hn (q :: (b!"descr" ++ [])) hs with ⟨hh, -⟩ | ⟨q0, tok, s2, heq, hne, _, h2, b2⟩ | ⟨q0, tok, q', r2, heq, ht, h2⟩
    · simp at hh
    · obtain ⟨-, rfl⟩ := List.cons.inj heq
      obtain ⟨s3, h3, b3⟩ := skip_bad b2
      obtain ⟨s4, h4, b4⟩ := rel_char_bad hn 58 b3
      obtain ⟨s5, h5, b5⟩ := skip_bad b4
      obtain ⟨s6, h6⟩ := bad s5 b5
      rw [item_run hn h h1 h2 h3 h4 h5]
      exact descr_ub h6
    · exfalso
      obtain ⟨-, heq⟩ := List.cons.inj heq
      have hl := congrArg List.length heq
      have h39 : q' ∈ b!"descr" := by
        have : q' ∈ tok ++ q' :: r2 := by simp
        rw [← heq] at this
        simpa using this
      rcases ht.2.2 with h | h
      · subst h; revert h39; decide
      · rw [List.length_append] at hl
        simp only [List.length_append, List.length_cons, List.length_nil] at hl
        omega
  | @colon w2 hw2 =>
    obtain ⟨s3, h3, b3⟩ := skip_end hs hw2
    obtain ⟨s4, h4, b4⟩ := rel_char_bad hn 58 b3
    obtain ⟨s5, h5, b5⟩ := skip_bad b4
    obtain ⟨s6, h6⟩ := bad s5 b5
    rw [item_run hn h h1 (hstr _) h3 h4 h5]
    exact descr_ub h6
  | @value w2 c w3 hw2 hc hw3 =>
    have h3 := skip_read (r := c :: w3) hs hw2 (dark_cons hc)
    have h4 := char_read cfg hs (hM 58 c) w3
    obtain ⟨s5, h5, b5⟩ := skip_end hs hw3
    obtain ⟨s6, h6⟩ := bad s5 b5
    rw [item_run hn h h1 (hstr _) h3 h4 h5]
    exact descr_ub h6
  | @opened w2 c w3 q2 hw2 hc hw3 hq2 =>
    have h3 := skip_read (r := c :: (w3 ++ [q2])) hs hw2 (dark_cons hc)
    have h4 := char_read cfg hs (hM 58 c) (w3 ++ [q2])
    have h5 := skip_read (r := [q2]) hs hw3 (dark_cons hq2)
    rw [item_run hn h h1 (hstr _) h3 h4 h5]
    rcases rel_string hn [q2] hs with ⟨_, s6, h6, _⟩ | ⟨q0, tok, s2, heq, hne, _, h2, b2⟩ | ⟨q0, tok, q', r2, heq, ht, h2⟩
    · exact descr_ub h6
    · obtain ⟨-, rfl⟩ := List.cons.inj heq
      exact absurd rfl hne
    · have := congrArg List.length heq
      simp at this
  | @empty w2 c w3 q2 r hw2 hc hw3 hq2 =>
    have h3 := skip_read (r := c :: (w3 ++ q2 :: 39 :: r)) hs hw2 (dark_cons hc)
    have h4 := char_read cfg hs (hM 58 c) (w3 ++ q2 :: 39 :: r)
    have h5 := skip_read (r := q2 :: 39 :: r) hs hw3 (dark_cons hq2)
    rw [item_run hn h h1 (hstr _) h3 h4 h5]
    exact descr_ub (string_read cfg hs (hM _ _) (fun _ => rfl) (tok := []) ⟨by simp, by simp, .inl rfl⟩ r)

/-! ### All items -/

theorem items_error {cfg : Cfg} (hn : cfg.ndebug = true) (fuel : Nat) {text : Bytes} {h : HeaderInfo} {e : Err} (hs : s.good = true)
    (hf : text.length < fuel) (hr : (parseItems cfg fuel h (s.withRest text)).1 = .error e) :
    (∃ x, e = .throw x) ∨ (e = .ub ∧ ∃ fs h' w q z, ItemsRead false fs text (w ++ q :: (b!"descr" ++ z)) ∧ applyFields h fs = .ok h' ∧
      White w ∧ ¬WhiteChar q ∧ (w = [] → q ≠ 125) ∧ NoDescr z) := by
  have hS : (!cfg.ndebug) = false := by rw [hn]; rfl
  have early : earlyEnd cfg = .throw (.runtimeError .unsupportedKey) := by simp [earlyEnd, hn]
  induction fuel generalizing text h with
  | zero => omega
  | succ fuel ih =>
    rw [parseItems] at hr
    match text with
    | [] =>
      rw [SM.bind_ok (IStream.peek_nil hs), if_neg (by simp)] at hr
      have hb := parseItem_bad cfg h (s := { s.withRest [] with eof := true }) (by simp [IStream.good])
      rw [SM.bind_error (Prod.ext hb rfl), early] at hr
      simp only [Except.error.injEq] at hr
      exact .inl ⟨_, hr.symm⟩
    | b :: rest =>
      rw [SM.bind_ok (IStream.peek_cons hs b rest)] at hr
      split at hr
      · simp at hr
      · rename_i hb
        match hi : parseItem cfg h (s.withRest (b :: rest)) with
        | (.error e', s1) =>
          rw [SM.bind_error hi] at hr
          simp only [Except.error.injEq] at hr
          subst hr
          rcases item_error hn hs (by rw [hi]) with hx | ⟨he, w, q, z, heq, hw, hq, hz⟩
          · exact .inl hx
          · refine .inr ⟨he, [], h, w, q, z, by rw [heq]; exact .nil, rfl, hw, hq, ?_, hz⟩
            rintro rfl rfl
            obtain ⟨rfl, -⟩ := List.cons.inj heq
            simp at hb
        | (.ok h1, s1) =>
          rw [SM.bind_ok hi] at hr
          cases hg : s1.good
          · match fuel, hr, hf with
            | 0, _, hf => simp at hf
            | k + 1, hr, _ =>
              rw [parseItems_bad cfg k h1 hg, early] at hr
              simp only [Except.error.injEq] at hr
              exact .inl ⟨_, hr.symm⟩
          · have hlen := parseItem_consumes cfg h h1 _ _ hi
            obtain ⟨f, w1, w2, w3, w4, q, c, d, v, r, heq, hw1, hw2, hw3, hw4, m1, hq, m3, hc, hv, hvd, m4, hrd, ha, rfl⟩ := item_inv hs hi hg
            rw [hS] at m1 m3 m4 hv
            simp only [IStream.withRest_rest] at hlen
            rcases ih (by omega) hr with hx | ⟨he, fs, h', w, q2, z, hl, ha2, rest2⟩
            · exact .inl hx
            · refine .inr ⟨he, f :: fs, h', w, q2, z, ?_, by rw [applyFields, ha]; exact ha2, rest2⟩
              rw [heq]
              refine .cons hw1 hw2 hw3 hw4 m1 hq ?_ m3 hc hv hvd m4 hrd hl
              rintro rfl rfl
              obtain ⟨rfl, -⟩ := List.cons.inj heq
              simp at hb

/-! ### The fields in the specification's terms -/

theorem applyFields_fine {fs : List Field} (hd : DescrsFine fs) (h : HeaderInfo) : ∃ h', applyFields h fs = .ok h' := by
  induction fs generalizing h with
  | nil => exact ⟨h, rfl⟩
  | cons f fs ih =>
    have hd' : DescrsFine fs := fun code hc => hd code (by simp [hc])
    cases f with
    | descr code =>
      obtain ⟨t, e, m, hr⟩ := hd code (by simp)
      rw [applyFields, applyField, setDescr_read hr h]
      exact ih hd' _
    | fortranOrder b => exact ih hd' _
    | shape ns => exact ih hd' _

theorem fine_of_applyFields {fs : List Field} {h h' : HeaderInfo} (ha : applyFields h fs = .ok h') : DescrsFine fs := by
  induction fs generalizing h with
  | nil => intro code hc; simp at hc
  | cons f fs ih =>
    rw [applyFields] at ha
    split at ha
    · rename_i h1 hf
      intro code hc
      rcases List.mem_cons.1 hc with rfl | hc
      · rcases setDescr_cases code with ⟨t, e, m, hr, _⟩ | ⟨_, hh⟩ | ⟨_, x, hh⟩
        · exact ⟨t, e, m, hr⟩
        · rw [applyField, hh h] at hf; simp at hf
        · rw [applyField, hh h] at hf; simp at hf
      · exact ih ha code hc
    · simp at ha

end Npy
