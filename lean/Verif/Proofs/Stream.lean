import Verif.Model.Header
/-! Stepping lemmas for streams in good state. States are written `s.withRest r`. -/

namespace Npy

/-- The stream `s` with other contents to read. -/
def IStream.withRest (s : IStream) (r : Bytes) : IStream := { s with rest := r }

namespace IStream

@[simp] theorem withRest_rest (s : IStream) (r) : (s.withRest r).rest = r := rfl
@[simp] theorem withRest_all (s : IStream) (r) : (s.withRest r).all = s.all := rfl
@[simp] theorem withRest_eof (s : IStream) (r) : (s.withRest r).eof = s.eof := rfl
@[simp] theorem withRest_fail (s : IStream) (r) : (s.withRest r).fail = s.fail := rfl
@[simp] theorem withRest_isOpen (s : IStream) (r) : (s.withRest r).isOpen = s.isOpen := rfl
@[simp] theorem withRest_isFile (s : IStream) (r) : (s.withRest r).isFile = s.isFile := rfl
@[simp] theorem withRest_good (s : IStream) (r) : (s.withRest r).good = s.good := rfl
@[simp] theorem withRest_withRest (s : IStream) (r r') : (s.withRest r).withRest r' = s.withRest r' := rfl
@[simp] theorem withRest_self (s : IStream) : s.withRest s.rest = s := rfl
@[simp] theorem ofBytes_good (bs) : (ofBytes bs).good = true := rfl
@[simp] theorem ofFile_good (bs) : (ofFile bs).good = true := rfl
@[simp] theorem ofBytes_rest (bs) : (ofBytes bs).rest = bs := rfl
@[simp] theorem ofFile_rest (bs) : (ofFile bs).rest = bs := rfl
@[simp] theorem ofBytes_all (bs) : (ofBytes bs).all = bs := rfl
@[simp] theorem ofFile_all (bs) : (ofFile bs).all = bs := rfl

theorem good_iff (s : IStream) : s.good = true ↔ s.eof = false ∧ s.fail = false := by
  simp [good]

variable {s : IStream}

theorem getc_cons (h : s.good = true) (b : Byte) (r : Bytes) :
    getc (s.withRest (b :: r)) = (.ok (some b), s.withRest r) := by
  simp [getc, h]; rfl

theorem getc_nil (h : s.good = true) :
    getc (s.withRest []) = (.ok none, (s.withRest []).setEofFail) := by
  simp [getc, h]

theorem peek_cons (h : s.good = true) (b : Byte) (r : Bytes) :
    peek (s.withRest (b :: r)) = (.ok (some b), s.withRest (b :: r)) := by
  simp [peek, h]

theorem peek_nil (h : s.good = true) :
    peek (s.withRest []) = (.ok none, { s.withRest [] with eof := true }) := by
  simp [peek, h]

theorem read_append (h : s.good = true) (a r : Bytes) (n : Nat) (hn : a.length = n) :
    read n (s.withRest (a ++ r)) = (.ok a, s.withRest r) := by
  subst hn
  simp only [read, withRest_good, h, if_true, withRest_rest]
  simp [withRest]

theorem read_short (h : s.good = true) (a : Bytes) (n : Nat) (hn : a.length < n) :
    read n (s.withRest a) = (.ok a, (s.withRest []).setEofFail) := by
  have : ¬ n ≤ a.length := by omega
  simp only [read, withRest_good, h, if_true, withRest_rest, this, if_false]
  rfl

end IStream

variable {s : IStream}

theorem readChar_ok (cfg : Cfg) (h : s.good = true) (c : Byte) (r : Bytes) :
    readChar cfg c (s.withRest (c :: r)) = (.ok (), s.withRest r) := by
  unfold readChar
  rw [SM.bind_ok (IStream.getc_cons h c r)]
  cases hn : cfg.ndebug <;> simp

theorem readLit_ok (cfg : Cfg) (h : s.good = true) (lit r : Bytes) :
    readLit cfg lit (s.withRest (lit ++ r)) = (.ok (), s.withRest r) := by
  unfold readLit
  rw [SM.bind_ok (IStream.read_append h lit r _ rfl)]
  cases hn : cfg.ndebug <;> simp

/-- Does the next byte exist and is it not white space? -/
def notSpaceHead : Bytes → Prop
  | [] => False
  | b :: _ => isSpace b = false

theorem skipWhitespaceAux_ok (h : s.good = true) (ws r : Bytes) (hws : ∀ b ∈ ws, isSpace b = true)
    (hr : notSpaceHead r) (fuel : Nat) (hf : ws.length < fuel) :
    skipWhitespaceAux fuel (s.withRest (ws ++ r)) = (.ok (), s.withRest r) := by
  induction ws generalizing fuel with
  | nil =>
    obtain ⟨fuel, rfl⟩ : ∃ k, fuel = k + 1 := ⟨fuel - 1, by simp at hf; omega⟩
    match r, hr with
    | b :: r', hb =>
      simp only [List.nil_append, skipWhitespaceAux]
      rw [SM.bind_ok (IStream.peek_cons h b r')]
      simp [notSpaceHead] at hb
      simp [hb]
  | cons w ws ih =>
    obtain ⟨fuel, rfl⟩ : ∃ k, fuel = k + 1 := ⟨fuel - 1, by simp at hf; omega⟩
    simp only [List.cons_append, skipWhitespaceAux]
    rw [SM.bind_ok (IStream.peek_cons h w (ws ++ r))]
    have hw := hws w (by simp)
    simp only [hw, if_true]
    rw [SM.bind_ok (IStream.getc_cons h w (ws ++ r))]
    exact ih (fun b hb => hws b (by simp [hb])) fuel (by simp at hf; omega)

theorem skipWhitespace_ok (h : s.good = true) (ws r : Bytes) (hws : ∀ b ∈ ws, isSpace b = true)
    (hr : notSpaceHead r) :
    skipWhitespace (s.withRest (ws ++ r)) = (.ok (), s.withRest r) := by
  exact skipWhitespaceAux_ok h ws r hws hr ((ws ++ r).length + 1) (by simp only [List.length_append]; omega)

theorem skipWhitespaceAux_end (h : s.good = true) (ws : Bytes) (hws : ∀ b ∈ ws, isSpace b = true)
    (fuel : Nat) (hf : ws.length < fuel) :
    skipWhitespaceAux fuel (s.withRest ws) = (.ok (), { s.withRest [] with eof := true }) := by
  induction ws generalizing fuel with
  | nil =>
    obtain ⟨fuel, rfl⟩ : ∃ k, fuel = k + 1 := ⟨fuel - 1, by simp at hf; omega⟩
    simp only [skipWhitespaceAux]
    rw [SM.bind_ok (IStream.peek_nil h)]
    rfl
  | cons w ws ih =>
    obtain ⟨fuel, rfl⟩ : ∃ k, fuel = k + 1 := ⟨fuel - 1, by simp at hf; omega⟩
    simp only [skipWhitespaceAux]
    rw [SM.bind_ok (IStream.peek_cons h w ws)]
    have hw := hws w (by simp)
    simp only [hw, if_true]
    rw [SM.bind_ok (IStream.getc_cons h w ws)]
    exact ih (fun b hb => hws b (by simp [hb])) fuel (by simp at hf; omega)

theorem skipWhitespace_end (h : s.good = true) (ws : Bytes) (hws : ∀ b ∈ ws, isSpace b = true) :
    skipWhitespace (s.withRest ws) = (.ok (), { s.withRest [] with eof := true }) := by
  exact skipWhitespaceAux_end h ws hws (ws.length + 1) (by omega)

theorem takeWhile_append_delim (tok r : Bytes) (delim : Byte) (ht : delim ∉ tok) :
    (tok ++ delim :: r).takeWhile (· != delim) = tok := by
  rw [List.takeWhile_append_of_pos]
  · simp
  · intro a ha
    simp only [bne_iff_ne]
    rintro rfl; exact ht ha

theorem getUntil_ok (h : s.good = true) (n : Nat) (tok r : Bytes) (delim : Byte) (ht : delim ∉ tok)
    (hlen : tok.length ≤ n) (hne : tok ≠ []) :
    IStream.getUntil n delim (s.withRest (tok ++ delim :: r)) = (.ok tok, s.withRest (delim :: r)) := by
  obtain ⟨he, hf⟩ := (IStream.good_iff s).1 h
  have h1 : ((tok ++ delim :: r).take n).takeWhile (· != delim) = tok := by
    rw [List.take_append]
    rw [List.take_of_length_le hlen, List.takeWhile_append_of_pos]
    · obtain hz | ⟨k, hk⟩ : n - tok.length = 0 ∨ ∃ k, n - tok.length = k + 1 := by
        rcases Nat.eq_zero_or_pos (n - tok.length) with h | h
        · exact .inl h
        · exact .inr ⟨n - tok.length - 1, by omega⟩
      · simp [hz]
      · simp [hk]
    · intro a ha
      simp only [bne_iff_ne]
      rintro rfl; exact ht ha
  have h2 : (tok ++ delim :: r).drop tok.length = delim :: r := by simp
  simp only [IStream.getUntil, IStream.withRest_good, h, if_true, IStream.withRest_rest, h1, h2]
  simp [IStream.withRest, he, hf, hne]

theorem readTo_ok (h : s.good = true) (tok r : Bytes) (delim : Byte) (ht : delim ∉ tok)
    (hlen : tok.length < BUFFER_SIZE) :
    readTo delim (s.withRest (tok ++ delim :: r)) = (.ok tok, s.withRest (delim :: r)) := by
  unfold readTo
  match tok, ht, hlen with
  | [], _, _ =>
    simp only [List.nil_append]
    rw [SM.bind_ok (IStream.peek_cons h delim r)]
    simp
  | b :: tok, ht, hlen =>
    simp only [List.cons_append]
    rw [SM.bind_ok (IStream.peek_cons h b _)]
    have hb : b ≠ delim := by rintro rfl; simp at ht
    simp only [hb, if_false]
    exact getUntil_ok h _ (b :: tok) r delim ht (by omega) (by simp)

theorem readString_ok (cfg : Cfg) (h : s.good = true) (tok r : Bytes) (ht : 39 ∉ tok)
    (hlen : tok.length < BUFFER_SIZE) :
    readString cfg (s.withRest (39 :: (tok ++ 39 :: r))) = (.ok tok, s.withRest r) := by
  unfold readString
  rw [SM.bind_ok (readChar_ok cfg h 39 _), SM.bind_ok (readTo_ok h tok r 39 ht hlen),
    SM.bind_ok (readChar_ok cfg h 39 _)]
  rfl

theorem readBool_ok (cfg : Cfg) (h : s.good = true) (b : Bool) (r : Bytes) :
    readBool cfg (s.withRest ((if b then b!"True" else b!"False") ++ r)) = (.ok b, s.withRest r) := by
  unfold readBool
  cases b
  · have hp := IStream.peek_cons h 70 (b!"alse" ++ r)
    have hl := readLit_ok cfg h b!"False" r
    simp only [Bool.false_eq_true, if_false, List.cons_append, List.nil_append] at hp hl ⊢
    rw [SM.bind_ok hp, if_neg (by decide), SM.bind_ok hp, if_pos (by decide), SM.bind_ok hl]
    rfl
  · have hp := IStream.peek_cons h 84 (b!"rue" ++ r)
    have hl := readLit_ok cfg h b!"True" r
    simp only [if_true, List.cons_append, List.nil_append] at hp hl ⊢
    rw [SM.bind_ok hp, if_pos (by decide), SM.bind_ok hl]
    rfl

end Npy
