import Verif.Proofs.AcceptShape
/-! Everything the header parser accepts. -/

namespace Npy
open Spec (White IsNumeral Field WhiteChar Mark Token ValueRead BeginsDark ItemsRead DictRead DescrRead DescrsFine NoDescr EmptyDescr)

/-! ### Once not good, never good again -/

/-- A stream that is good after the call was good before. -/
def Sticky {α : Type} (m : IM α) : Prop := ∀ s, (m s).2.good = true → s.good = true

theorem Sticky.bind {α β : Type} {x : IM α} {f : α → IM β} (hx : Sticky x) (hf : ∀ a, Sticky (f a)) : Sticky (x >>= f) := by
  intro s hg
  match he : x s with
  | (.ok a, s') =>
    rw [SM.bind_ok he] at hg
    have := hx s
    rw [he] at this
    exact this (hf a s' hg)
  | (.error e, s') =>
    rw [SM.bind_error he] at hg
    have := hx s
    rw [he] at this
    exact this hg

theorem Sticky.pure {α : Type} (a : α) : Sticky (Pure.pure a : IM α) := fun _ h => h
theorem Sticky.fail {α : Type} (e : Err) : Sticky (SM.fail e : IM α) := fun _ h => h
theorem Sticky.lift {α : Type} (x : Except Err α) : Sticky (SM.lift x : IM α) := fun _ h => h
theorem Sticky.ite {α : Type} {c : Prop} [Decidable c] {x y : IM α} (hx : Sticky x) (hy : Sticky y) : Sticky (if c then x else y) := by
  split <;> assumption

theorem Sticky.of_bad {α : Type} {m : IM α} (h : ∀ s, s.good = false → (m s).2 = s.setFail) : Sticky m := by
  intro s hg
  cases hs : s.good
  · rw [h s hs, bad_setFail] at hg; exact absurd hg (by simp)
  · rfl

theorem sticky_getc : Sticky IStream.getc := .of_bad fun s h => by rw [getc_bad h]
theorem sticky_peek : Sticky IStream.peek := .of_bad fun s h => by rw [peek_bad h]
theorem sticky_getUntil (n : Nat) (d : Byte) : Sticky (IStream.getUntil n d) := .of_bad fun s h => by rw [getUntil_bad h]
theorem sticky_read (n : Nat) : Sticky (IStream.read n) := .of_bad fun s h => by simp [IStream.read, h]
theorem sticky_skip : Sticky skipWhitespace := .of_bad fun s h => by rw [skipWhitespace_bad h]

theorem sticky_readChar (cfg : Cfg) (c : Byte) : Sticky (readChar cfg c) := by
  unfold readChar
  refine sticky_getc.bind fun a => ?_
  cases a with
  | none => exact .ite (.pure _) (.fail _)
  | some b => exact .ite (.pure _) (.ite (.pure _) (.fail _))

theorem sticky_readLit (cfg : Cfg) (l : Bytes) : Sticky (readLit cfg l) := by
  unfold readLit
  exact (sticky_read _).bind fun a => .ite (.pure _) (.ite (.pure _) (.fail _))

theorem sticky_readTo (d : Byte) : Sticky (readTo d) := by
  unfold readTo
  refine sticky_peek.bind fun a => ?_
  cases a with
  | none => exact sticky_getUntil _ _
  | some c => exact .ite (.pure _) (sticky_getUntil _ _)

theorem sticky_readString (cfg : Cfg) : Sticky (readString cfg) := by
  unfold readString
  exact (sticky_readChar _ _).bind fun _ => (sticky_readTo _).bind fun _ => (sticky_readChar _ _).bind fun _ => .pure _

theorem sticky_readBool (cfg : Cfg) : Sticky (readBool cfg) := by
  unfold readBool
  refine sticky_peek.bind fun a => .ite ?_ ?_
  · exact (sticky_readLit _ _).bind fun _ => .pure _
  · refine sticky_peek.bind fun a => .ite ?_ (.fail _)
    exact (sticky_readLit _ _).bind fun _ => .pure _

theorem sticky_readShape (cfg : Cfg) : Sticky (readShape cfg) := by
  unfold readShape
  exact (sticky_readChar _ _).bind fun _ => (sticky_readTo _).bind fun text => (sticky_readChar _ _).bind fun _ => .lift _

theorem sticky_parseValue (cfg : Cfg) (h : HeaderInfo) (key : Bytes) : Sticky (parseValue cfg h key) := by
  unfold parseValue
  refine .ite ?_ (.ite ?_ (.ite ?_ (.fail _)))
  · exact (sticky_readString _).bind fun code => .lift _
  · exact (sticky_readBool _).bind fun _ => .pure _
  · exact (sticky_readShape _).bind fun _ => .pure _

theorem Sticky.ok {α : Type} {m : IM α} (hm : Sticky m) {s s' : IStream} {a : α} (h : m s = (.ok a, s')) (hg : s'.good = true) :
    s.good = true := hm s (by rw [h]; exact hg)

/-! ### What was there when a step succeeded -/

variable {s s' : IStream}

theorem beginsDark_iff (r : Bytes) : BeginsDark r ↔ notSpaceHead r := by
  match r with
  | [] => simp [BeginsDark, notSpaceHead]
  | b :: r => simp [BeginsDark, notSpaceHead, whiteChar_iff]

theorem skip_inv {text : Bytes} (h : s.good = true) (hr : skipWhitespace (s.withRest text) = (.ok (), s')) (hg : s'.good = true) :
    ∃ ws r, text = ws ++ r ∧ White ws ∧ BeginsDark r ∧ s' = s.withRest r := by
  obtain ⟨ws, r, rfl, hw, hsp, -⟩ := split_white text
  rcases hsp with rfl | hsp
  · rw [List.append_nil, skipWhitespace_end h ws (white_isSpace hw)] at hr
    rw [← (Prod.mk.inj hr).2] at hg
    simp [IStream.good] at hg
  · rw [skipWhitespace_ok h ws r (white_isSpace hw) hsp] at hr
    exact ⟨ws, r, rfl, hw, (beginsDark_iff r).2 hsp, (Prod.mk.inj hr).2.symm⟩

theorem skip_read {ws r : Bytes} (h : s.good = true) (hw : White ws) (hr : BeginsDark r) :
    skipWhitespace (s.withRest (ws ++ r)) = (.ok (), s.withRest r) :=
  skipWhitespace_ok h ws r (white_isSpace hw) ((beginsDark_iff r).1 hr)

theorem char_inv {cfg : Cfg} {c : Byte} {text : Bytes} (h : s.good = true) (hr : readChar cfg c (s.withRest text) = (.ok (), s'))
    (hg : s'.good = true) : ∃ a r, text = a :: r ∧ Mark (!cfg.ndebug) c a ∧ s' = s.withRest r := by
  match text with
  | [] =>
    rw [readChar_none (IStream.getc_nil h) c] at hr
    split at hr
    · rw [← (Prod.mk.inj hr).2] at hg
      simp [IStream.good, IStream.setEofFail] at hg
    · simp at hr
  | a :: r =>
    unfold readChar at hr
    rw [SM.bind_ok (IStream.getc_cons h a r)] at hr
    simp only [] at hr
    cases hn : cfg.ndebug
    · rw [hn] at hr
      simp only [Bool.false_eq_true, if_false] at hr
      split at hr
      · rename_i hc
        exact ⟨a, r, rfl, fun _ => hc, (Prod.mk.inj hr).2.symm⟩
      · simp at hr
    · rw [hn, if_pos rfl] at hr
      exact ⟨a, r, rfl, by simp [Mark], (Prod.mk.inj hr).2.symm⟩

theorem char_read (cfg : Cfg) {c a : Byte} (h : s.good = true) (hm : Mark (!cfg.ndebug) c a) (r : Bytes) :
    readChar cfg c (s.withRest (a :: r)) = (.ok (), s.withRest r) := by
  unfold readChar
  rw [SM.bind_ok (IStream.getc_cons h a r)]
  cases hn : cfg.ndebug
  · have := hm (by rw [hn]; rfl)
    simp [this]
  · simp

theorem to_inv {d : Byte} {text tok : Bytes} (h : s.good = true) (hr : readTo d (s.withRest text) = (.ok tok, s'))
    (hg : s'.good = true) : ∃ q r, text = tok ++ q :: r ∧ Token d tok q ∧ s' = s.withRest (q :: r) := by
  unfold readTo at hr
  match text with
  | [] =>
    rw [SM.bind_ok (IStream.peek_nil h)] at hr
    simp only [] at hr
    have := (sticky_getUntil _ _).ok hr hg
    simp [IStream.good] at this
  | b :: rest =>
    rw [SM.bind_ok (IStream.peek_cons h b rest)] at hr
    simp only [] at hr
    split at hr
    · rename_i hb
      subst hb
      obtain ⟨h1, h2⟩ := Prod.mk.inj hr
      simp only [Except.ok.injEq] at h1
      subst h1
      exact ⟨b, rest, rfl, ⟨by simp, by simp, .inl rfl⟩, h2.symm⟩
    · rename_i hb
      obtain ⟨he, hf⟩ := (IStream.good_iff s).1 h
      simp only [IStream.getUntil, IStream.withRest_good, h, if_true, IStream.withRest_rest, Prod.mk.injEq, Except.ok.injEq] at hr
      obtain ⟨h1, h2⟩ := hr
      have hB : BUFFER_SIZE - 1 = 65535 := rfl
      rw [hB] at h1
      have hpre : tok <+: (b :: rest).take 65535 := by rw [← h1]; exact List.takeWhile_prefix _
      obtain ⟨u, hu⟩ := hpre.trans (List.take_prefix _ _)
      have hnd : d ∉ tok := by
        intro hd
        rw [← h1] at hd
        simpa using List.mem_takeWhile_imp hd
      have hlen : tok.length ≤ 65535 := by
        have := hpre.length_le
        simp only [List.length_take] at this
        omega
      rw [hB, h1, ← hu, List.drop_left] at h2
      match u with
      | [] =>
        rw [← h2] at hg
        simp [IStream.good] at hg
      | q :: r =>
        refine ⟨q, r, hu.symm, ⟨hnd, hlen, ?_⟩, ?_⟩
        · rcases Nat.lt_or_ge tok.length 65535 with hl | hl
          · left
            rw [← hu] at h1
            obtain ⟨k, hk⟩ : ∃ k, 65535 - tok.length = k + 1 := ⟨65535 - tok.length - 1, by omega⟩
            rw [List.take_append, List.take_of_length_le hlen, hk, List.take_succ_cons, List.takeWhile_append_of_pos] at h1
            · have h3 : List.takeWhile (fun x => x != d) (q :: List.take k r) = [] := by
                have := congrArg List.length h1
                simp only [List.length_append] at this
                exact List.length_eq_zero_iff.1 (by omega)
              by_contra hq
              rw [List.takeWhile_cons, if_pos (by simpa using hq)] at h3
              simp at h3
            · intro a ha
              simp only [bne_iff_ne]
              rintro rfl; exact hnd ha
          · right; omega
        · have hne : tok ≠ [] := by
            rintro rfl
            rw [← h2] at hg
            simp [IStream.good] at hg
          rw [← h2]
          simp [IStream.withRest, he, hf, hne]

theorem to_read {d q : Byte} {tok : Bytes} (h : s.good = true) (ht : Token d tok q) (r : Bytes) :
    readTo d (s.withRest (tok ++ q :: r)) = (.ok tok, s.withRest (q :: r)) := by
  obtain ⟨h1, h2, h3⟩ := ht
  by_cases hq : q = d
  · subst hq
    exact readTo_ok h tok r q h1 (by have : BUFFER_SIZE = 65536 := rfl; omega)
  · have h3 := h3.resolve_left hq
    obtain ⟨he, hf⟩ := (IStream.good_iff s).1 h
    unfold readTo
    match tok, h1, h2, h3 with
    | [], _, _, h3 => simp at h3
    | b :: tok, h1, h2, h3 =>
      have hb : b ≠ d := by rintro rfl; simp at h1
      rw [List.cons_append, SM.bind_ok (IStream.peek_cons h b _)]
      simp only [hb, if_false]
      rw [← List.cons_append]
      have hB : BUFFER_SIZE - 1 = (b :: tok).length := by rw [h3]; rfl
      have ht : ((b :: tok ++ q :: r).take (BUFFER_SIZE - 1)).takeWhile (· != d) = b :: tok := by
        rw [hB, List.take_left, List.takeWhile_eq_self_iff]
        intro a ha
        simp only [bne_iff_ne]
        rintro rfl; exact h1 ha
      have hd : (b :: tok ++ q :: r).drop (b :: tok).length = q :: r := List.drop_left
      simp only [IStream.getUntil, IStream.withRest_good, h, if_true, IStream.withRest_rest, ht, hd]
      simp [IStream.withRest, he, hf]

theorem string_inv {cfg : Cfg} {text tok : Bytes} (h : s.good = true) (hr : readString cfg (s.withRest text) = (.ok tok, s'))
    (hg : s'.good = true) : ∃ q q' r, text = q :: (tok ++ q' :: r) ∧ Mark (!cfg.ndebug) 39 q ∧ Mark (!cfg.ndebug) 39 q' ∧
      Token 39 tok q' ∧ s' = s.withRest r := by
  unfold readString at hr
  obtain ⟨_, s1, h1, hr⟩ := SM.of_bind_ok hr
  obtain ⟨t, s2, h2, hr⟩ := SM.of_bind_ok hr
  obtain ⟨_, s3, h3, hr⟩ := SM.of_bind_ok hr
  obtain ⟨e1, e2⟩ := Prod.mk.inj hr
  simp only [Except.ok.injEq] at e1
  subst e1 e2
  have g2 := (sticky_readChar _ _).ok h3 hg
  have g1 := (sticky_readTo _).ok h2 g2
  obtain ⟨q, r1, rfl, m1, rfl⟩ := char_inv h h1 g1
  obtain ⟨q', r2, rfl, ht, rfl⟩ := to_inv h h2 g2
  obtain ⟨q'', r3, heq, m2, rfl⟩ := char_inv h h3 hg
  obtain ⟨rfl, rfl⟩ := List.cons.inj heq
  exact ⟨q, q', r2, rfl, m1, m2, ht, rfl⟩

theorem string_read (cfg : Cfg) {q q' : Byte} {tok : Bytes} (h : s.good = true) (m1 : Mark (!cfg.ndebug) 39 q)
    (m2 : Mark (!cfg.ndebug) 39 q') (ht : Token 39 tok q') (r : Bytes) :
    readString cfg (s.withRest (q :: (tok ++ q' :: r))) = (.ok tok, s.withRest r) := by
  unfold readString
  rw [SM.bind_ok (char_read cfg h m1 _), SM.bind_ok (to_read h ht r), SM.bind_ok (char_read cfg h m2 r)]
  rfl

theorem lit_inv {cfg : Cfg} {lit text : Bytes} (h : s.good = true) (hr : readLit cfg lit (s.withRest text) = (.ok (), s'))
    (hg : s'.good = true) : ∃ a r, text = a ++ r ∧ a.length = lit.length ∧ (cfg.ndebug = false → a = lit) ∧ s' = s.withRest r := by
  unfold readLit at hr
  by_cases hl : lit.length ≤ text.length
  · have e : text = text.take lit.length ++ text.drop lit.length := (List.take_append_drop _ _).symm
    have hlen : (text.take lit.length).length = lit.length := by simp [hl]
    rw [e, SM.bind_ok (IStream.read_append h _ _ _ hlen)] at hr
    refine ⟨_, _, e, hlen, ?_⟩
    cases hn : cfg.ndebug
    · rw [hn] at hr
      simp only [Bool.false_eq_true, if_false] at hr
      split at hr
      · rename_i hc
        exact ⟨fun _ => hc, (Prod.mk.inj hr).2.symm⟩
      · simp at hr
    · rw [hn, if_pos rfl] at hr
      exact ⟨by simp, (Prod.mk.inj hr).2.symm⟩
  · rw [SM.bind_ok (IStream.read_short h _ _ (by omega))] at hr
    exfalso
    have : s'.good = false := by
      split at hr
      · rw [← (Prod.mk.inj hr).2]; simp [IStream.good, IStream.setEofFail]
      · split at hr
        · rw [← (Prod.mk.inj hr).2]; simp [IStream.good, IStream.setEofFail]
        · simp at hr
    rw [this] at hg
    simp at hg

theorem lit_read (cfg : Cfg) {lit a : Bytes} (h : s.good = true) (hl : a.length = lit.length) (hc : cfg.ndebug = false → a = lit)
    (r : Bytes) : readLit cfg lit (s.withRest (a ++ r)) = (.ok (), s.withRest r) := by
  unfold readLit
  rw [SM.bind_ok (IStream.read_append h a r _ hl)]
  cases hn : cfg.ndebug
  · simp [hc hn]
  · simp

theorem list3 {α : Type} {l : List α} (h : l.length = 3) : ∃ a b c, l = [a, b, c] := by
  match l, h with
  | [a, b, c], _ => exact ⟨a, b, c, rfl⟩

theorem list4 {α : Type} {l : List α} (h : l.length = 4) : ∃ a b c d, l = [a, b, c, d] := by
  match l, h with
  | [a, b, c, d], _ => exact ⟨a, b, c, d, rfl⟩

theorem bool_inv {cfg : Cfg} {text : Bytes} {x : Bool} (h : s.good = true) (hr : readBool cfg (s.withRest text) = (.ok x, s'))
    (hg : s'.good = true) : ∃ v r, text = v ++ r ∧ ValueRead (!cfg.ndebug) (.fortranOrder x) v ∧ s' = s.withRest r := by
  unfold readBool at hr
  match text with
  | [] =>
    rw [SM.bind_ok (IStream.peek_nil h), if_neg (by simp)] at hr
    rw [SM.bind_ok (peek_bad (by simp [IStream.good])), if_neg (by simp)] at hr
    simp at hr
  | b :: rest =>
    rw [SM.bind_ok (IStream.peek_cons h b rest)] at hr
    split at hr
    · rename_i hb
      obtain rfl : b = 84 := by simpa using hb
      obtain ⟨_, s1, h1, hr⟩ := SM.of_bind_ok hr
      obtain ⟨e1, e2⟩ := Prod.mk.inj hr
      simp only [Except.ok.injEq] at e1
      subst e1 e2
      obtain ⟨a, r, heq, hl, hc, rfl⟩ := lit_inv h h1 hg
      match a, hl with
      | [a, b, c, d], _ =>
        obtain ⟨rfl, rfl⟩ := List.cons.inj heq
        refine ⟨84 :: [b, c, d], r, rfl, .isTrue fun hs => ?_, rfl⟩
        have := hc (by simpa using hs)
        exact (List.cons.inj this).2
    · rw [SM.bind_ok (IStream.peek_cons h b rest)] at hr
      split at hr
      · rename_i hb
        obtain rfl : b = 70 := by simpa using hb
        obtain ⟨_, s1, h1, hr⟩ := SM.of_bind_ok hr
        obtain ⟨e1, e2⟩ := Prod.mk.inj hr
        simp only [Except.ok.injEq] at e1
        subst e1 e2
        obtain ⟨a, r, heq, hl, hc, rfl⟩ := lit_inv h h1 hg
        match a, hl with
        | [a, b, c, d, e], _ =>
          obtain ⟨rfl, rfl⟩ := List.cons.inj heq
          refine ⟨70 :: [b, c, d, e], r, rfl, .isFalse fun hs => ?_, rfl⟩
          have := hc (by simpa using hs)
          exact (List.cons.inj this).2
      · simp at hr

theorem shape_inv {cfg : Cfg} {text : Bytes} {ns : List Nat} (h : s.good = true) (hr : readShape cfg (s.withRest text) = (.ok ns, s'))
    (hg : s'.good = true) : ∃ v r, text = v ++ r ∧ ValueRead (!cfg.ndebug) (.shape ns) v ∧ s' = s.withRest r := by
  unfold readShape at hr
  obtain ⟨_, s1, h1, hr⟩ := SM.of_bind_ok hr
  obtain ⟨t, s2, h2, hr⟩ := SM.of_bind_ok hr
  obtain ⟨_, s3, h3, hr⟩ := SM.of_bind_ok hr
  rw [SM.lift_apply] at hr
  obtain ⟨e1, e2⟩ := Prod.mk.inj hr
  subst e2
  have g2 := (sticky_readChar _ _).ok h3 hg
  have g1 := (sticky_readTo _).ok h2 g2
  obtain ⟨q, r1, rfl, m1, rfl⟩ := char_inv h h1 g1
  obtain ⟨q', r2, rfl, ht, rfl⟩ := to_inv h h2 g2
  obtain ⟨q'', r3, heq, m2, rfl⟩ := char_inv h h3 hg
  obtain ⟨rfl, rfl⟩ := List.cons.inj heq
  exact ⟨q :: (t ++ [q']), r2, by simp, .shape m1 m2 ht ((readShapeLoop_iff cfg t ns).1 e1), rfl⟩

theorem value_inv {cfg : Cfg} {text key : Bytes} {h h' : HeaderInfo} (hs : s.good = true)
    (hr : parseValue cfg h key (s.withRest text) = (.ok h', s')) (hg : s'.good = true) :
    ∃ f v r, key = f.key ∧ text = v ++ r ∧ ValueRead (!cfg.ndebug) f v ∧ applyField h f = .ok h' ∧ s' = s.withRest r := by
  unfold parseValue at hr
  split at hr
  · rename_i hk
    obtain ⟨code, s1, h1, hr⟩ := SM.of_bind_ok hr
    rw [SM.lift_apply] at hr
    obtain ⟨e1, e2⟩ := Prod.mk.inj hr
    subst e2
    obtain ⟨q, q', r, rfl, m1, m2, ht, rfl⟩ := string_inv hs h1 hg
    exact ⟨.descr code, q :: (code ++ [q']), r, hk, by simp, .descr m1 m2 ht, e1, rfl⟩
  · split at hr
    · rename_i hk
      obtain ⟨x, s1, h1, hr⟩ := SM.of_bind_ok hr
      obtain ⟨e1, e2⟩ := Prod.mk.inj hr
      subst e2
      obtain ⟨v, r, rfl, hv, rfl⟩ := bool_inv hs h1 hg
      exact ⟨.fortranOrder x, v, r, hk, rfl, hv, e1, rfl⟩
    · split at hr
      · rename_i hk
        obtain ⟨x, s1, h1, hr⟩ := SM.of_bind_ok hr
        obtain ⟨e1, e2⟩ := Prod.mk.inj hr
        subst e2
        obtain ⟨v, r, rfl, hv, rfl⟩ := shape_inv hs h1 hg
        exact ⟨.shape x, v, r, hk, rfl, hv, e1, rfl⟩
      · simp at hr

theorem value_read (cfg : Cfg) {f : Field} {v : Bytes} (hs : s.good = true) (hv : ValueRead (!cfg.ndebug) f v) (h : HeaderInfo)
    (r : Bytes) : parseValue cfg h f.key (s.withRest (v ++ r)) = (applyField h f, s.withRest r) := by
  unfold parseValue
  cases hv with
  | @descr q q' code m1 m2 ht =>
    rw [if_pos (by simp [Field.key])]
    have := string_read cfg hs m1 m2 ht r
    rw [List.cons_append, List.append_assoc]
    show (readString cfg >>= _) (s.withRest (q :: (code ++ q' :: r))) = _
    rw [SM.bind_ok this]
    rfl
  | @isTrue a b c hc =>
    rw [if_neg (by simp [Field.key]), if_pos (by simp [Field.key])]
    have h1 : readBool cfg (s.withRest (84 :: [a, b, c] ++ r)) = (.ok true, s.withRest r) := by
      unfold readBool
      have hp := IStream.peek_cons hs 84 ([a, b, c] ++ r)
      have hl := lit_read cfg (lit := b!"True") (a := 84 :: [a, b, c]) hs rfl (fun hn => by rw [hc (by rw [hn]; rfl)]) r
      rw [List.cons_append] at hl ⊢
      rw [SM.bind_ok hp, if_pos rfl, SM.bind_ok hl]
      rfl
    rw [SM.bind_ok h1]
    rfl
  | @isFalse a b c d hc =>
    rw [if_neg (by simp [Field.key]), if_pos (by simp [Field.key])]
    have h1 : readBool cfg (s.withRest (70 :: [a, b, c, d] ++ r)) = (.ok false, s.withRest r) := by
      unfold readBool
      have hp := IStream.peek_cons hs 70 ([a, b, c, d] ++ r)
      have hl := lit_read cfg (lit := b!"False") (a := 70 :: [a, b, c, d]) hs rfl (fun hn => by rw [hc (by rw [hn]; rfl)]) r
      rw [List.cons_append] at hl ⊢
      rw [SM.bind_ok hp, if_neg (by decide), SM.bind_ok hp, if_pos rfl, SM.bind_ok hl]
      rfl
    rw [SM.bind_ok h1]
    rfl
  | @shape q q' text ns m1 m2 ht hl =>
    rw [if_neg (by simp [Field.key]), if_neg (by simp [Field.key]), if_pos (by simp [Field.key])]
    have h1 : readShape cfg (s.withRest (q :: (text ++ q' :: r))) = (.ok ns, s.withRest r) := by
      unfold readShape
      rw [SM.bind_ok (char_read cfg hs m1 _), SM.bind_ok (to_read hs ht r), SM.bind_ok (char_read cfg hs m2 r), SM.lift_apply,
        (readShapeLoop_iff cfg text ns).2 hl]
    rw [List.cons_append, List.append_assoc]
    show (readShape cfg >>= _) (s.withRest (q :: (text ++ q' :: r))) = _
    rw [SM.bind_ok h1]
    rfl

/-! ### One item -/

theorem beginsDark_append {v r : Bytes} (h : BeginsDark v) : BeginsDark (v ++ r) := by
  obtain ⟨b, r', rfl, hb⟩ := h
  exact ⟨b, r' ++ r, rfl, hb⟩

theorem valueRead_ne {strict : Bool} {f : Field} {v : Bytes} (h : ValueRead strict f v) : v ≠ [] := by
  cases h <;> simp

theorem beginsDark_of_append {v r : Bytes} (h : BeginsDark (v ++ r)) (hv : v ≠ []) : BeginsDark v := by
  obtain ⟨b, r', heq, hb⟩ := h
  match v, hv with
  | c :: v, _ =>
    obtain ⟨rfl, -⟩ := List.cons.inj heq
    exact ⟨c, v, rfl, hb⟩

theorem key_token (f : Field) : Token 39 f.key 39 :=
  ⟨key_no_quote f, by cases f <;> simp [Field.key], .inl rfl⟩

theorem key_close {f : Field} {q : Byte} (h : Token 39 f.key q) : q = 39 := by
  rcases h.2.2 with h | h
  · exact h
  · revert h; cases f <;> simp [Field.key]

theorem item_inv {cfg : Cfg} {text : Bytes} {h h' : HeaderInfo} (hs : s.good = true)
    (hr : parseItem cfg h (s.withRest text) = (.ok h', s')) (hg : s'.good = true) :
    ∃ f w1 w2 w3 w4 q c d v r, text = w1 ++ q :: (f.key ++ 39 :: (w2 ++ c :: (w3 ++ (v ++ d :: (w4 ++ r))))) ∧
      White w1 ∧ White w2 ∧ White w3 ∧ White w4 ∧ Mark (!cfg.ndebug) 39 q ∧ ¬WhiteChar q ∧ Mark (!cfg.ndebug) 58 c ∧ ¬WhiteChar c ∧
      ValueRead (!cfg.ndebug) f v ∧ BeginsDark v ∧ Mark (!cfg.ndebug) 44 d ∧ BeginsDark r ∧ applyField h f = .ok h' ∧
      s' = s.withRest r := by
  unfold parseItem at hr
  obtain ⟨_, s1, h1, hr⟩ := SM.of_bind_ok hr
  obtain ⟨key, s2, h2, hr⟩ := SM.of_bind_ok hr
  obtain ⟨_, s3, h3, hr⟩ := SM.of_bind_ok hr
  obtain ⟨_, s4, h4, hr⟩ := SM.of_bind_ok hr
  obtain ⟨_, s5, h5, hr⟩ := SM.of_bind_ok hr
  obtain ⟨_, s6, h6, hr⟩ := SM.of_bind_ok hr
  obtain ⟨_, s7, h7, hr⟩ := SM.of_bind_ok hr
  obtain ⟨_, s8, h8, hr⟩ := SM.of_bind_ok hr
  obtain ⟨e1, e2⟩ := Prod.mk.inj hr
  simp only [Except.ok.injEq] at e1
  subst e1 e2
  have g7 := sticky_skip.ok h8 hg
  have g6 := (sticky_readChar _ _).ok h7 g7
  have g5 := (sticky_parseValue _ _ _).ok h6 g6
  have g4 := sticky_skip.ok h5 g5
  have g3 := (sticky_readChar _ _).ok h4 g4
  have g2 := sticky_skip.ok h3 g3
  have g1 := (sticky_readString _).ok h2 g2
  obtain ⟨w1, r1, rfl, hw1, hd1, rfl⟩ := skip_inv hs h1 g1
  obtain ⟨q, q', r2, rfl, m1, m2, ht, rfl⟩ := string_inv hs h2 g2
  obtain ⟨w2, r3, rfl, hw2, hd2, rfl⟩ := skip_inv hs h3 g3
  obtain ⟨c, r4, rfl, m3, rfl⟩ := char_inv hs h4 g4
  obtain ⟨w3, r5, rfl, hw3, hd3, rfl⟩ := skip_inv hs h5 g5
  obtain ⟨f, v, r6, rfl, rfl, hv, ha, rfl⟩ := value_inv hs h6 g6
  obtain ⟨d, r7, rfl, m4, rfl⟩ := char_inv hs h7 g7
  obtain ⟨w4, r8, rfl, hw4, hd4, rfl⟩ := skip_inv hs h8 hg
  have hq' := key_close ht
  subst hq'
  obtain ⟨b, _, heq, hb⟩ := hd1
  obtain ⟨rfl, -⟩ := List.cons.inj heq
  obtain ⟨b', _, heq', hb'⟩ := hd2
  obtain ⟨rfl, -⟩ := List.cons.inj heq'
  exact ⟨f, w1, w2, w3, w4, q, c, d, v, r8, rfl, hw1, hw2, hw3, hw4, m1, hb, m3, hb', hv, beginsDark_of_append hd3 (valueRead_ne hv), m4, hd4,
    ha, rfl⟩

theorem dark_cons {b : Byte} {r : Bytes} (h : ¬WhiteChar b) : BeginsDark (b :: r) := ⟨b, r, rfl, h⟩

/-- An item whose value is refused, or is fine. -/
theorem item_read (cfg : Cfg) {f : Field} {w1 w2 w3 w4 v r : Bytes} {q c d : Byte} (hs : s.good = true) (hw1 : White w1) (hw2 : White w2)
    (hw3 : White w3) (hw4 : White w4) (m1 : Mark (!cfg.ndebug) 39 q) (hq : ¬WhiteChar q) (m3 : Mark (!cfg.ndebug) 58 c)
    (hc : ¬WhiteChar c) (hv : ValueRead (!cfg.ndebug) f v) (hvd : BeginsDark v) (m4 : Mark (!cfg.ndebug) 44 d) (hr : BeginsDark r)
    {h h' : HeaderInfo} (ha : applyField h f = .ok h') :
    parseItem cfg h (s.withRest (w1 ++ q :: (f.key ++ 39 :: (w2 ++ c :: (w3 ++ (v ++ d :: (w4 ++ r))))))) = (.ok h', s.withRest r) := by
  unfold parseItem
  rw [SM.bind_ok (skip_read hs hw1 (dark_cons hq)), SM.bind_ok (string_read cfg hs m1 (fun _ => rfl) (key_token f) _),
    SM.bind_ok (skip_read hs hw2 (dark_cons hc)), SM.bind_ok (char_read cfg hs m3 _),
    SM.bind_ok (skip_read hs hw3 (beginsDark_append hvd))]
  have := value_read cfg hs hv h (d :: (w4 ++ r))
  rw [ha] at this
  rw [SM.bind_ok this, SM.bind_ok (char_read cfg hs m4 _), SM.bind_ok (skip_read hs hw4 hr)]
  rfl

/-! ### All items -/

theorem items_peek {w1 x : Bytes} {q : Byte} (hs : s.good = true) (hw1 : White w1) (hq : w1 = [] → q ≠ 125) :
    ∃ b, b ≠ 125 ∧ IStream.peek (s.withRest (w1 ++ q :: x)) = (.ok (some b), s.withRest (w1 ++ q :: x)) := by
  match w1, hw1, hq with
  | [], _, hq => exact ⟨q, hq rfl, IStream.peek_cons hs q x⟩
  | b :: w, hw, _ =>
    refine ⟨b, ?_, IStream.peek_cons hs b _⟩
    rintro rfl
    have := hw 125 (by simp)
    revert this; decide

theorem items_inv {cfg : Cfg} (fuel : Nat) {text : Bytes} {h h' : HeaderInfo} (hs : s.good = true)
    (hr : parseItems cfg fuel h (s.withRest text) = (.ok h', s')) :
    ∃ fs tail, ItemsRead (!cfg.ndebug) fs text (125 :: tail) ∧ applyFields h fs = .ok h' ∧ s' = s.withRest (125 :: tail) := by
  induction fuel generalizing text h with
  | zero => simp [parseItems] at hr
  | succ fuel ih =>
    rw [parseItems] at hr
    match text with
    | [] =>
      rw [SM.bind_ok (IStream.peek_nil hs), if_neg (by simp)] at hr
      obtain ⟨h1, s1, hi, -⟩ := SM.of_bind_ok hr
      have := parseItem_bad cfg h (s := { s.withRest [] with eof := true }) (by simp [IStream.good])
      rw [hi] at this
      simp at this
    | b :: rest =>
      rw [SM.bind_ok (IStream.peek_cons hs b rest)] at hr
      split at hr
      · rename_i hb
        obtain rfl : b = 125 := by simpa using hb
        obtain ⟨e1, e2⟩ := Prod.mk.inj hr
        exact ⟨[], rest, .nil, e1, e2.symm⟩
      · rename_i hb
        obtain ⟨h1, s1, hi, hr⟩ := SM.of_bind_ok hr
        cases hg : s1.good
        · exfalso
          match fuel, hr with
          | 0, hr => simp [parseItems] at hr
          | k + 1, hr =>
            have := parseItems_bad cfg k h1 hg
            rw [hr] at this
            simp at this
        · obtain ⟨f, w1, w2, w3, w4, q, c, d, v, r, heq, hw1, hw2, hw3, hw4, m1, hq, m3, hc, hv, hvd, m4, hrd, ha, rfl⟩ := item_inv hs hi hg
          obtain ⟨fs, tail, h2, h3, rfl⟩ := ih hr
          refine ⟨f :: fs, tail, ?_, by rw [applyFields, ha]; exact h3, rfl⟩
          rw [heq]
          refine .cons hw1 hw2 hw3 hw4 m1 hq ?_ m3 hc hv hvd m4 hrd h2
          rintro rfl rfl
          obtain ⟨rfl, -⟩ := List.cons.inj heq
          simp at hb

theorem itemsRead_length {strict : Bool} {fs : List Field} {text tail : Bytes} (h : ItemsRead strict fs text tail) :
    fs.length + tail.length ≤ text.length := by
  induction h with
  | nil => simp
  | cons _ _ _ _ _ _ _ _ _ _ _ _ _ _ ih => simp only [List.length_cons, List.length_append]; omega

/-- The items are read one after the other; whatever follows is left. -/
theorem items_read (cfg : Cfg) {fs : List Field} {text tail : Bytes} (hl : ItemsRead (!cfg.ndebug) fs text tail) (hs : s.good = true)
    (h h' : HeaderInfo) (ha : applyFields h fs = .ok h') (k : Nat) :
    parseItems cfg (fs.length + k) h (s.withRest text) = parseItems cfg k h' (s.withRest tail) := by
  induction hl generalizing h with
  | nil =>
    simp only [applyFields, Except.ok.injEq] at ha
    subst ha
    simp
  | @cons f fs w1 w2 w3 w4 q c d v rest tail hw1 hw2 hw3 hw4 m1 hq hq1 m3 hc hv hvd m4 hrd hrest ih =>
    rw [applyFields] at ha
    split at ha
    · rename_i h1 hf
      rw [List.length_cons, show fs.length + 1 + k = fs.length + k + 1 by omega, parseItems]
      obtain ⟨b, hb, hp⟩ := items_peek (x := f.key ++ 39 :: (w2 ++ c :: (w3 ++ (v ++ d :: (w4 ++ rest))))) hs hw1 hq1
      rw [SM.bind_ok hp, if_neg (by simpa using hb), SM.bind_ok (item_read cfg hs hw1 hw2 hw3 hw4 m1 hq m3 hc hv hvd m4 hrd hf)]
      exact ih h1 ha
    · simp at ha

theorem parse_accept (cfg : Cfg) (text : Bytes) (info : HeaderInfo) :
    parseHeader cfg text = .ok info ↔ ∃ fs, DictRead (!cfg.ndebug) fs text ∧ applyFields HeaderInfo.uninit fs = .ok info := by
  have hs : (IStream.ofBytes text).good = true := rfl
  generalize hS : IStream.ofBytes text = S at hs
  have hw : S = S.withRest text := by rw [← hS]; rfl
  constructor
  · intro hp
    unfold parseHeader at hp
    rw [hS, hw] at hp
    match hr : ((do readChar cfg 123; let h ← parseItems cfg (text.length + 1) HeaderInfo.uninit; readChar cfg 125; pure h : IM HeaderInfo) (S.withRest text)), hp with
    | (.ok i, s'), hp =>
      simp only [Except.ok.injEq] at hp
      subst hp
      obtain ⟨_, s1, h1, hr⟩ := SM.of_bind_ok hr
      obtain ⟨h2, s2, hi, hr⟩ := SM.of_bind_ok hr
      obtain ⟨_, s3, h3, hr⟩ := SM.of_bind_ok hr
      obtain ⟨e1, e2⟩ := Prod.mk.inj hr
      simp only [Except.ok.injEq] at e1
      subst e1
      cases hg : s1.good
      · have := parseItems_bad cfg text.length HeaderInfo.uninit hg
        rw [hi] at this
        simp at this
      · obtain ⟨c, r, rfl, m, rfl⟩ := char_inv hs h1 hg
        obtain ⟨fs, tail, h4, h5, rfl⟩ := items_inv _ hs hi
        exact ⟨fs, ⟨c, r, tail, rfl, m, h4⟩, h5⟩
  · rintro ⟨fs, ⟨c, rest, padding, rfl, m, hl⟩, ha⟩
    unfold parseHeader
    rw [hS, hw, SM.bind_ok (char_read cfg hs m rest)]
    have hlen := itemsRead_length hl
    simp only [List.length_cons] at hlen
    obtain ⟨k, hk⟩ : ∃ k, (c :: rest).length + 1 = fs.length + (k + 1) := ⟨(c :: rest).length - fs.length, by simp only [List.length_cons]; omega⟩
    have : parseItems cfg ((c :: rest).length + 1) HeaderInfo.uninit (S.withRest rest) = (.ok info, S.withRest (125 :: padding)) := by
      rw [hk, items_read cfg hl hs _ _ ha, parseItems, SM.bind_ok (IStream.peek_cons hs _ _), if_pos rfl]
      rfl
    rw [SM.bind_ok this, SM.bind_ok (readChar_ok cfg hs 125 padding)]
    rfl

end Npy
