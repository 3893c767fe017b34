import Verif.Proofs.Parse
/-! Dictionaries cut inside the shape (the effect of a wrong length field). -/

namespace Npy

/-- The dictionary up to the opening parenthesis of the shape. -/
def dictPrefix (d : Bytes) (f : Bool) : Bytes :=
  b!"{'descr': '" ++ d ++ b!"', 'fortran_order': " ++ (if f then b!"True" else b!"False") ++ b!", 'shape': ("

theorem shapeText_no_paren (ns : List Nat) : 41 ∉ shapeText ns ++ (if ns.length = 1 then b!"," else []) :=
  shapeLayout_no_paren (shapeText_layout ns)

theorem getUntil_end {s : IStream} (h : s.good = true) (n : Nat) (tok : Bytes) (d : Byte) (ht : d ∉ tok)
    (hn : tok.length ≤ n) :
    IStream.getUntil n d (s.withRest tok) = (.ok tok, { s.withRest [] with eof := true, fail := tok.isEmpty }) := by
  have htw : tok.takeWhile (· != d) = tok := by
    rw [List.takeWhile_eq_self_iff]
    intro b hb
    simp only [bne_iff_ne, ne_eq]
    rintro rfl
    exact ht hb
  simp only [IStream.getUntil, IStream.withRest_good, h, if_true, IStream.withRest_rest, List.take_of_length_le hn, htw,
    List.drop_length]
  rfl

/-- Reading a token when the delimiter is missing exhausts the stream. -/
theorem readTo_end {s : IStream} (h : s.good = true) (tok : Bytes) (d : Byte) (ht : d ∉ tok)
    (hn : tok.length < BUFFER_SIZE) : ∃ s', readTo d (s.withRest tok) = (.ok tok, s') ∧ s'.good = false := by
  unfold readTo
  match tok, ht, hn with
  | [], _, _ =>
    rw [SM.bind_ok (IStream.peek_nil h)]
    exact ⟨_, getUntil_bad (by simp [IStream.good]) _ _, bad_setFail⟩
  | b :: tok, ht, hn =>
    rw [SM.bind_ok (IStream.peek_cons h b tok)]
    simp only []
    rw [if_neg (by rintro rfl; simp at ht)]
    exact ⟨_, getUntil_end h _ (b :: tok) d ht (by omega), by simp [IStream.good]⟩

/-- In a release build the loop over the extents always returns a list. -/
theorem readShapeLoop_returns (cfg : Cfg) (hnd : cfg.ndebug = true) (fuel : Nat) (acc : List Nat) (s : IStream)
    (h : s.rest.length < fuel) : ∃ ns, (readShapeLoop cfg fuel acc s).1 = .ok ns := by
  have hrc : ∀ c s, ∃ s', readChar cfg c s = (.ok (), s') := by
    intro c s
    unfold readChar
    rw [SM.bind_apply]
    have : ∃ o s', IStream.getc s = (.ok o, s') := by
      simp only [IStream.getc]
      split
      · split <;> exact ⟨_, _, rfl⟩
      · exact ⟨_, _, rfl⟩
    obtain ⟨o, s', ho⟩ := this
    rw [ho]
    cases o <;> simp [hnd]
  have hpk : ∀ s, ∃ o s', IStream.peek s = (.ok o, s') := by
    intro s
    simp only [IStream.peek]
    split
    · split <;> exact ⟨_, _, rfl⟩
    · exact ⟨_, _, rfl⟩
  have hsk : ∀ fuel s, s.rest.length < fuel → ∃ s', skipWhitespaceAux fuel s = (.ok (), s') := by
    intro fuel
    induction fuel with
    | zero => intro s hs; omega
    | succ fuel ih =>
      intro s hs
      rw [skipWhitespaceAux]
      cases hg : s.good
      · rw [SM.bind_ok (peek_bad hg)]; exact ⟨_, rfl⟩
      · match hr : s.rest with
        | [] =>
          have : s = s.withRest [] := by rw [← hr]; rfl
          rw [this, SM.bind_ok (IStream.peek_nil hg)]; exact ⟨_, rfl⟩
        | b :: r =>
          have : s = s.withRest (b :: r) := by rw [← hr]; rfl
          rw [this, SM.bind_ok (IStream.peek_cons hg b r)]
          simp only []
          split
          · rw [SM.bind_ok (IStream.getc_cons hg b r)]
            exact ih _ (by rw [hr] at hs; simp at hs ⊢; omega)
          · exact ⟨_, rfl⟩
  induction fuel generalizing acc s with
  | zero => omega
  | succ fuel ih =>
    rw [readShapeLoop]
    obtain ⟨_, h1, o, h2⟩ := extractSize_consumes s
    match he : IStream.extractSize s with
    | (r, s1) =>
      rw [he] at h1 h2
      simp only at h1 h2
      subst h2
      rw [SM.bind_ok he]
      cases o with
      | none => exact ⟨acc, rfl⟩
      | some n =>
        have h3 := h1 ⟨n, rfl⟩
        simp only []
        obtain ⟨a, s2, hp⟩ := hpk s1
        have h4 := tame_ok tame_peek hp
        rw [SM.bind_ok hp]
        split
        · obtain ⟨s3, hq⟩ := hrc 44 s2
          have h5 := tame_ok (tame_readChar cfg 44) hq
          rw [SM.bind_ok hq]
          obtain ⟨s4, hw⟩ := hsk (s3.rest.length + 1) s3 (by omega)
          have hw' : skipWhitespace s3 = (.ok (), s4) := hw
          have h6 := tame_ok tame_skipWhitespace hw'
          rw [SM.bind_ok hw']
          exact ih _ _ (by omega)
        · exact ih _ _ (by omega)

/-- The third item when its closing parenthesis is missing. -/
theorem parseItems_cut (cfg : Cfg) (h : HeaderInfo) {s : IStream} (hs : s.good = true) (fuel : Nat) (tok : Bytes)
    (ht : 41 ∉ tok) (hn : tok.length < BUFFER_SIZE) :
    (parseItems cfg (fuel + 2) h
      (s.withRest (39 :: (b!"shape" ++ 39 :: ([] ++ 58 :: (b!" " ++ 40 :: tok)))))).1 = .error (earlyEnd cfg) := by
  have hw1 : Spec.White [32] := by simp [Spec.White]
  rw [parseItems, SM.bind_ok (IStream.peek_cons hs _ _), if_neg (by decide)]
  obtain ⟨s', hs1, hs2⟩ := readTo_end hs tok 41 ht hn
  have hskip := skipWhitespace_ok hs [] (39 :: (b!"shape" ++ 39 :: ([] ++ 58 :: (b!" " ++ 40 :: tok)))) (by simp)
    (by simp only [notSpaceHead]; decide)
  have hskip2 := skipWhitespace_ok hs [] (58 :: (b!" " ++ 40 :: tok)) (by simp)
    (by simp only [notSpaceHead]; decide)
  rw [List.nil_append] at hskip
  cases hnd : cfg.ndebug
  · have hshape : readShape cfg (s.withRest (40 :: tok)) = (.error .ub, s'.setFail) := by
      unfold readShape
      have := readChar_none (cfg := cfg) (getc_bad hs2) 41
      rw [hnd] at this
      rw [SM.bind_ok (readChar_ok cfg hs 40 _), SM.bind_ok hs1, SM.bind_error this]
    have hitem : parseItem cfg h (s.withRest (39 :: (b!"shape" ++ 39 :: ([] ++ 58 :: (b!" " ++ 40 :: tok))))) =
        (.error .ub, s'.setFail) := by
      unfold parseItem
      rw [SM.bind_ok hskip, SM.bind_ok (readString_ok cfg hs b!"shape" _ (by decide) (by decide)), SM.bind_ok hskip2,
        SM.bind_ok (readChar_ok cfg hs 58 _),
        SM.bind_ok (skipWhitespace_ok hs b!" " _ (white_isSpace hw1) (by simp only [notSpaceHead]; decide))]
      unfold parseValue
      rw [if_neg (by decide), if_neg (by decide), if_pos (by decide)]
      rw [SM.bind_error (SM.bind_error hshape)]
    rw [SM.bind_error hitem]
    simp [earlyEnd, hnd]
  · obtain ⟨ns, hns⟩ := readShapeLoop_returns cfg hnd (tok.length + 1) [] (IStream.ofBytes tok) (by simp)
    have hshape : readShape cfg (s.withRest (40 :: tok)) = (.ok ns, s'.setFail) := by
      unfold readShape
      have := readChar_none (cfg := cfg) (getc_bad hs2) 41
      rw [hnd] at this
      simp only [if_true] at this
      rw [SM.bind_ok (readChar_ok cfg hs 40 _), SM.bind_ok hs1, SM.bind_ok this, SM.lift_apply, hns]
    have hrc : readChar cfg 44 s'.setFail = (.ok (), s'.setFail.setFail) := by
      rw [readChar_none (getc_bad bad_setFail) 44, hnd]; rfl
    have hval : ((do let shape ← readShape cfg; pure { h with shape := shape }) : IM HeaderInfo)
        (s.withRest (40 :: tok)) = (.ok { h with shape := ns }, s'.setFail) := by
      rw [SM.bind_ok hshape]; rfl
    have hitem : parseItem cfg h (s.withRest (39 :: (b!"shape" ++ 39 :: ([] ++ 58 :: (b!" " ++ 40 :: tok))))) =
        (.ok { h with shape := ns }, s'.setFail.setFail.setFail) := by
      unfold parseItem
      rw [SM.bind_ok hskip, SM.bind_ok (readString_ok cfg hs b!"shape" _ (by decide) (by decide)), SM.bind_ok hskip2,
        SM.bind_ok (readChar_ok cfg hs 58 _),
        SM.bind_ok (skipWhitespace_ok hs b!" " _ (white_isSpace hw1) (by simp only [notSpaceHead]; decide))]
      unfold parseValue
      rw [if_neg (by decide), if_neg (by decide), if_pos (by decide)]
      rw [SM.bind_ok hval, SM.bind_ok hrc, SM.bind_ok (skipWhitespace_bad bad_setFail)]
      rfl
    rw [SM.bind_ok hitem]
    exact parseItems_bad cfg fuel _ bad_setFail

/-- A dictionary cut inside the shape is refused. -/
theorem parseHeader_cut (cfg : Cfg) {d : Bytes} (f : Bool) (hd : 39 ∉ d) {h1 : HeaderInfo}
    (hd' : setDescr HeaderInfo.uninit d = .ok h1) (hlen : d.length < 100) (tok : Bytes) (ht : 41 ∉ tok)
    (hn : tok.length < BUFFER_SIZE) :
    parseHeader cfg (dictPrefix d f ++ tok) = .error (earlyEnd cfg) := by
  obtain ⟨r3, hr3⟩ : ∃ r3, r3 = 39 :: (b!"shape" ++ 39 :: ([] ++ 58 :: (b!" " ++ 40 :: tok))) := ⟨_, rfl⟩
  obtain ⟨r2, hr2⟩ : ∃ r2, r2 = (39 :: (b!"fortran_order" ++ 39 :: ([] ++ 58 :: (b!" " ++ (Spec.pyBool f ++ 44 :: (b!" " ++ r3)))))) :=
    ⟨_, rfl⟩
  obtain ⟨r1, hr1⟩ : ∃ r1, r1 = (39 :: (b!"descr" ++ 39 :: ([] ++ 58 :: (b!" " ++ ((b!"'" ++ d ++ b!"'") ++ 44 :: (b!" " ++ r2)))))) :=
    ⟨_, rfl⟩
  have e : dictPrefix d f ++ tok = 123 :: r1 := by
    rw [hr1, hr2, hr3]
    simp [dictPrefix, Spec.pyBool]
  have hw0 : Spec.White [] := by simp [Spec.White]
  have hw1 : Spec.White [32] := by simp [Spec.White]
  rw [e]
  unfold parseHeader
  have hs := IStream.ofBytes_good (123 :: r1)
  have e0 : IStream.ofBytes (123 :: r1) = (IStream.ofBytes (123 :: r1)).withRest (123 :: r1) := rfl
  obtain ⟨k, hk⟩ : ∃ k, (123 :: r1).length + 1 = k + 2 + 1 + 1 := ⟨(123 :: r1).length - 3, by rw [hr1]; simp⟩
  rw [e0, hk, SM.bind_ok (readChar_ok cfg hs 123 _)]
  have i1 := parseItem_ok cfg HeaderInfo.uninit h1 (f := .descr d) hw0 hw0 hw1 hw1 .descr hd
    (by simp [BUFFER_SIZE]; omega) hd' hs r2 (by rw [hr2]; simp only [notSpaceHead]; decide)
  have i2 := parseItem_ok cfg h1 { h1 with fortranOrder := some f } (f := .fortranOrder f) hw0 hw0 hw1 hw1 .fortranOrder
    trivial (by cases f <;> decide) rfl hs r3 (by rw [hr3]; simp only [notSpaceHead]; decide)
  simp only [Spec.Field.key] at i1 i2
  have j1 : parseItems cfg (k + 2 + 1 + 1) HeaderInfo.uninit ((IStream.ofBytes (123 :: r1)).withRest r1) =
      parseItems cfg (k + 2 + 1) h1 ((IStream.ofBytes (123 :: r1)).withRest r2) := by
    generalize IStream.ofBytes (123 :: r1) = s at *
    rw [hr1, parseItems, SM.bind_ok (IStream.peek_cons hs _ _), if_neg (by decide)]
    rw [List.nil_append] at i1
    rw [SM.bind_ok i1]
  have j2 : parseItems cfg (k + 2 + 1) h1 ((IStream.ofBytes (123 :: r1)).withRest r2) =
      parseItems cfg (k + 2) { h1 with fortranOrder := some f } ((IStream.ofBytes (123 :: r1)).withRest r3) := by
    generalize IStream.ofBytes (123 :: r1) = s at *
    rw [hr2, parseItems, SM.bind_ok (IStream.peek_cons hs _ _), if_neg (by decide)]
    rw [List.nil_append] at i2
    rw [SM.bind_ok i2]
  have j3 := parseItems_cut cfg { h1 with fortranOrder := some f } hs k tok ht hn
  rw [← hr3] at j3
  match hp : parseItems cfg (k + 2) { h1 with fortranOrder := some f } ((IStream.ofBytes (123 :: r1)).withRest r3), j3 with
  | (.error er, s2), j3 =>
    rw [SM.bind_error (by rw [j1, j2]; exact hp)]
    exact j3

/-- Overlong headers: the part of the dictionary that the stored length covers ends inside the shape. -/
theorem overlong_take {d : Bytes} {f : Bool} {ns : List Nat} (hd : d.length ≤ 4)
    (hlen : 245 < (dictionaryText d f ns).length) :
    ∃ tok, 41 ∉ tok ∧ tok.length < 256 ∧
      (dictionaryText d f ns ++ headerEnd (dictionaryText d f ns).length).take
        (paddedDictLength (dictionaryText d f ns).length % 256) = dictPrefix d f ++ tok := by
  have hp : (dictPrefix d f).length ≤ 52 := by
    cases f <;> simp [dictPrefix] <;> omega
  have hl := paddedDictLength_le (dictionaryText d f ns).length
  have hgt := paddedDictLength_gt (dictionaryText d f ns).length
  have hmod := paddedDictLength_mod (dictionaryText d f ns).length
  have h256 : ¬ paddedDictLength (dictionaryText d f ns).length < 256 := by
    rw [paddedDictLength_lt_256]; omega
  have hsplit : dictionaryText d f ns =
      dictPrefix d f ++ ((shapeText ns ++ (if ns.length = 1 then b!"," else [])) ++ b!"), }") := by
    simp [dictionaryText, dictPrefix]
  have hlen2 := congrArg List.length hsplit
  generalize hS : shapeText ns ++ (if ns.length = 1 then b!"," else []) = S at hsplit hlen2
  have hS' : 41 ∉ S := by rw [← hS]; exact shapeText_no_paren ns
  generalize paddedDictLength (dictionaryText d f ns).length = P at *
  generalize headerEnd (dictionaryText d f ns).length = E
  simp only [List.length_append, List.length_cons, List.length_nil] at hlen2
  rw [STATIC_HEADER_LENGTH] at hmod
  refine ⟨S.take (P % 256 - (dictPrefix d f).length), fun h => hS' (List.mem_of_mem_take h), ?_, ?_⟩
  · rw [List.length_take]; omega
  · rw [hsplit, List.append_assoc, List.take_append, List.take_of_length_le (by omega), List.append_assoc,
      List.take_append_of_le_length (by omega)]

end Npy
