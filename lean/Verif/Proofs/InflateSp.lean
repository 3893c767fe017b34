import Verif.Spec.DeflateFault
import Verif.Proofs.InflateReject
/-!
# What the coroutine does on any bytes

`Co.sp N co Q rest hist c`: run on the bytes `rest`, however they are cut into buffers, the coroutine finishes with `Q`,
stops with the status "failed", or runs out of input, and it writes at most `N` bytes altogether.
-/

set_option maxRecDepth 8000

namespace Npy
open Spec.Deflate

def Co.sp {α : Type} (N : Nat) : Co α → Post α → Bytes → Bytes → Nat → Prop
  | .pure a, Q, rest, hist, c => Q a rest hist c
  | .stop r, _, _, _, _ => r = .failed
  | .getByte k, Q, rest, hist, c =>
    match rest with
    | [] => True
    | b :: bs => (k b).sp N Q bs hist c
  | .availIn k, Q, rest, hist, c => ∀ n ≤ rest.length, (k n).sp N Q rest hist c
  | .availOut k, Q, rest, hist, c => ∀ m, c ≤ m → (k m).sp N Q rest hist m
  | .waitOut k, Q, rest, hist, c => hist.length < N ∧ k.sp N Q rest hist (max c 1)
  | .put b k, Q, rest, hist, c => 0 < c ∧ hist.length < N ∧ k.sp N Q rest (b :: hist) (c - 1)
  | .putBack d k, Q, rest, hist, c =>
    0 < c ∧ hist.length < N ∧ ∃ b, hist[(d + 32767) % 32768]? = some b ∧ k.sp N Q rest (b :: hist) (c - 1)

section
variable {α β : Type} {N : Nat}

theorem Co.sp_bind (x : Co α) (f : α → Co β) (Q : Post β) (rest hist : Bytes) (c : Nat) :
    (x >>= f).sp N Q rest hist c ↔ x.sp N (fun a r h c => (f a).sp N Q r h c) rest hist c := by
  show (Co.bind x f).sp N Q rest hist c ↔ _
  induction x generalizing rest hist c with
  | pure a => exact Iff.rfl
  | stop r => exact Iff.rfl
  | getByte k ih =>
    match rest with
    | [] => exact Iff.rfl
    | b :: bs => exact ih b bs hist c
  | availIn k ih => exact forall_congr' fun n => forall_congr' fun _ => ih n rest hist c
  | availOut k ih => exact forall_congr' fun n => forall_congr' fun _ => ih n rest hist n
  | waitOut k ih => exact and_congr_right fun _ => ih rest hist _
  | put b k ih => exact and_congr_right fun _ => and_congr_right fun _ => ih rest _ _
  | putBack d k ih => exact and_congr_right fun _ => and_congr_right fun _ => exists_congr fun _ => and_congr_right fun _ => ih rest _ _

/-- A part that certainly finishes. -/
theorem Co.sp_of_wp {W : Nat → Nat → Prop} (hW : ∀ h r, W h r → h < N) {x : Co α} {Q : Post α} {rest hist : Bytes} {c : Nat}
    (h : x.wp W Q rest hist c) : x.sp N Q rest hist c := by
  induction x generalizing rest hist c with
  | pure a => exact h
  | stop r => exact absurd h id
  | getByte k ih =>
    match rest, h with
    | [], h => exact absurd h id
    | b :: bs, h => exact ih b h
  | availIn k ih => exact fun n hn => ih n (h n hn)
  | availOut k ih => exact fun n hn => ih n (h n hn)
  | waitOut k ih => exact ⟨hW _ _ h.1, ih h.2⟩
  | put b k ih => exact ⟨h.1, hW _ _ h.2.1, ih h.2.2⟩
  | putBack d k ih => exact ⟨h.1, hW _ _ h.2.1, h.2.2.choose, h.2.2.choose_spec.1, ih h.2.2.choose_spec.2⟩

theorem Co.sp_mono {x : Co α} {Q Q' : Post α} {rest hist : Bytes} {c : Nat} (h : x.sp N Q rest hist c)
    (hQ : ∀ a r h c, Q a r h c → Q' a r h c) : x.sp N Q' rest hist c := by
  induction x generalizing rest hist c with
  | pure a => exact hQ _ _ _ _ h
  | stop r => exact h
  | getByte k ih =>
    match rest, h with
    | [], _ => exact trivial
    | b :: bs, h => exact ih b h
  | availIn k ih => exact fun n hn => ih n (h n hn)
  | availOut k ih => exact fun n hn => ih n (h n hn)
  | waitOut k ih => exact ⟨h.1, ih h.2⟩
  | put b k ih => exact ⟨h.1, h.2.1, ih h.2.2⟩
  | putBack d k ih => exact ⟨h.1, h.2.1, h.2.2.choose, h.2.2.choose_spec.1, ih h.2.2.choose_spec.2⟩

theorem Co.sp_byte {f : UInt8 → Co β} {Q : Post β} {rest hist : Bytes} {c : Nat}
    (h : ∀ b bs, rest = b :: bs → (f b).sp N Q bs hist c) : (coByte >>= f).sp N Q rest hist c := by
  rw [Co.sp_bind]
  match rest, h with
  | [], _ => exact trivial
  | b :: bs, h => exact h b bs rfl

theorem Co.sp_availIn {f : Nat → Co β} {Q : Post β} {rest hist : Bytes} {c : Nat}
    (h : ∀ n ≤ rest.length, (f n).sp N Q rest hist c) : (coAvailIn >>= f).sp N Q rest hist c := by
  rw [Co.sp_bind]; exact h

theorem Co.sp_availOut {f : Nat → Co β} {Q : Post β} {rest hist : Bytes} {c : Nat}
    (h : ∀ n, c ≤ n → (f n).sp N Q rest hist n) : (coAvailOut >>= f).sp N Q rest hist c := by
  rw [Co.sp_bind]; exact h

theorem Co.sp_waitOut {f : Unit → Co β} {Q : Post β} {rest hist : Bytes} {c : Nat} (h1 : hist.length < N)
    (h : (f ()).sp N Q rest hist (max c 1)) : (coWaitOut >>= f).sp N Q rest hist c := by
  rw [Co.sp_bind]; exact ⟨h1, h⟩

theorem Co.sp_put {f : Unit → Co β} {Q : Post β} {b : UInt8} {rest hist : Bytes} {c : Nat} (h1 : 0 < c)
    (h2 : hist.length < N) (h : (f ()).sp N Q rest (b :: hist) (c - 1)) : (coPut b >>= f).sp N Q rest hist c := by
  rw [Co.sp_bind]; exact ⟨h1, h2, h⟩

end

/-! ### Bits -/

section
variable {N : Nat} {hist : Bytes} {c : Nat}

/-- Too few bits: the input runs out. -/
theorem sp_needBits_short {n : Nat} (f : Nat) {b : BitBuf} {rest : Bytes} (hn : b.num < n)
    (hl : (strm b rest).length < n) (hf : n ≤ b.num + 8 * f) {Q : Post BitBuf} :
    (needBits n f b).sp N Q rest hist c := by
  induction f generalizing b rest with
  | zero => omega
  | succ f ih =>
    rw [needBits]
    apply Co.sp_byte
    rintro x xs rfl
    rw [strm_length, List.length_cons] at hl
    rw [if_pos (by rw [BitBuf.feed_num]; omega)]
    exact ih (by rw [BitBuf.feed_num]; omega) (by rw [strm_length, BitBuf.feed_num]; omega)
      (by rw [BitBuf.feed_num]; omega)

/-- The bits as a number. -/
theorem lsb_split {S : List Bool} {n : Nat} (h : n ≤ S.length) :
    ∃ v R, S = lsb n v ++ R ∧ v < 2 ^ n := by
  have hl : (S.take n).length = n := by rw [List.length_take]; omega
  refine ⟨bval (S.take n), S.drop n, ?_, ?_⟩
  · have := lsb_bval (S.take n)
    rw [hl] at this
    rw [this, List.take_append_drop]
  · have := bval_lt (S.take n)
    rwa [hl] at this

theorem sp_getBits {n : Nat} {b : BitBuf} {rest : Bytes} (hb : b.Good) (h16 : n ≤ 16) {Q : Post (Nat × BitBuf)}
    (hQ : ∀ v b' rest', v < 2 ^ n → b'.Good → strm b rest = lsb n v ++ strm b' rest' → Q (v, b') rest' hist c) :
    (getBits n b).sp N Q rest hist c := by
  by_cases hl : n ≤ (strm b rest).length
  · obtain ⟨v, R, hs, hv⟩ := lsb_split hl
    apply Co.sp_of_wp (W := Still N) (fun _ _ => still)
    apply wp_getBits hb hs hv h16
    intro b' rest' g s
    exact hQ v b' rest' hv g (by rw [s]; exact hs)
  · have hn : b.num < n := by rw [strm_length] at hl; omega
    unfold getBits ensureBits
    rw [Co.sp_bind, if_pos hn]
    exact sp_needBits_short _ hn (by omega) (by omega)

theorem sp_extraBits {n base : Nat} {b : BitBuf} {rest : Bytes} (hb : b.Good) (h16 : n ≤ 16) {Q : Post (Nat × BitBuf)}
    (hQ : ∀ v b' rest', v < 2 ^ n → b'.Good → strm b rest = lsb n v ++ strm b' rest' → Q (base + v, b') rest' hist c) :
    (extraBits n base b).sp N Q rest hist c := by
  unfold extraBits
  by_cases h : n = 0
  · subst h
    rw [if_neg (by simp)]
    exact hQ 0 b rest (by simp) hb rfl
  · rw [if_pos h, Co.sp_bind]
    exact sp_getBits hb h16 hQ

theorem sp_rawByte {b : BitBuf} {rest : Bytes} (hb : b.Good) {Q : Post (Nat × BitBuf)}
    (hQ : ∀ v b' rest', v < 256 → b'.Good → strm b rest = lsb 8 v ++ strm b' rest' → Q (v, b') rest' hist c) :
    (rawByte b).sp N Q rest hist c := by
  unfold rawByte
  by_cases h : b.num = 0
  · rw [if_neg (by simpa using h)]
    apply Co.sp_byte
    rintro x xs rfl
    exact hQ x.toNat b xs x.toNat_lt hb (by rw [strm_zero h, strm_zero h, bits_cons, byteBits_eq])
  · rw [if_pos h]
    exact sp_getBits hb (by omega) hQ

/-! ### Symbols -/

variable {lens : List Nat} {t : HuffTable}

theorem bytes_of_lsb (k v : Nat) : ∃ x : Bytes, Spec.bits x = lsb (8 * k) v := by
  induction k generalizing v with
  | zero => exact ⟨[], rfl⟩
  | succ k ih =>
    obtain ⟨x, hx⟩ := ih (v / 2 ^ 8)
    refine ⟨UInt8.ofNat (v % 256) :: x, ?_⟩
    rw [bits_cons, byteBits_eq, hx, show 8 * (k + 1) = 8 + 8 * k by omega, lsb_append, UInt8.toNat_ofNat_of_lt' (by show _ < 256; omega)]
    rw [← lsb_mod 8 v]
    rfl

/-- Any bits are the beginning of some bytes. -/
theorem bits_complete (L : List Bool) : ∃ (x : Bytes) (R : List Bool), Spec.bits x = L ++ R := by
  obtain ⟨x, hx⟩ := bytes_of_lsb L.length (bval L)
  have h := lsb_prefix (show L.length ≤ 8 * L.length by omega) (bval L)
  rw [lsb_bval] at h
  obtain ⟨R, hR⟩ := h
  exact ⟨x, R, by rw [hx, hR]⟩

theorem fillEnough_short (hL : LensOk lens) (hT : TableOf lens t) {s : Nat} (h0 : lenOf lens s ≠ 0) {b : BitBuf}
    (hp : b.bits <+: huff lens s) (hn : b.num < lenOf lens s) : fillEnough t b = false := by
  obtain ⟨m, hm⟩ := hp
  obtain ⟨x, R, hx⟩ := bits_complete m
  rw [fillEnough_eq hL hT h0 (rest := x) (R := R) (by rw [strm, hx, ← List.append_assoc, hm])]
  exact decide_eq_false (by omega)

theorem sp_huffFill_short (hL : LensOk lens) (hT : TableOf lens t) {s : Nat} (h0 : lenOf lens s ≠ 0) (f : Nat) {b : BitBuf}
    {rest : Bytes} (hb : b.Ok) (hs : strm b rest <+: huff lens s) (hlt : (strm b rest).length < lenOf lens s)
    (hf : 15 ≤ b.num + 8 * f) {Q : Post BitBuf} :
    (huffFill t f b).sp N Q rest hist c := by
  have h15 := lenOf_le hL.h15 s
  induction f generalizing b rest with
  | zero => rw [strm_length] at hlt; omega
  | succ f ih =>
    have hl := hlt
    rw [strm_length] at hl
    rw [huffFill, fillEnough_short hL hT h0 ((List.prefix_append _ _).trans hs) (by omega), if_neg (by simp)]
    apply Co.sp_byte
    rintro x xs rfl
    rw [List.length_cons] at hl
    rw [if_pos (by rw [BitBuf.feed_num]; omega)]
    have e := strm_feed hb x xs
    exact ih (hb.feed x) (by rw [e]; exact hs) (by rw [e]; exact hlt) (by rw [BitBuf.feed_num]; omega)

/-- Decoding a symbol: there is one, or the input runs out in the middle of one, or the bits are no code. -/
theorem sp_huffDecode (hL : LensOk lens) (hT : TableOf lens t) {b : BitBuf} {rest : Bytes} (hb : b.Good)
    (hno : ¬NoCode lens (strm b rest)) {Q : Post (Nat × BitBuf)}
    (hQ : ∀ s b' rest', lenOf lens s ≠ 0 → b'.Good → strm b rest = huff lens s ++ strm b' rest' → Q (s, b') rest' hist c) :
    (huffDecode t b).sp N Q rest hist c := by
  by_cases hc : ∃ s, lenOf lens s ≠ 0 ∧ huff lens s <+: strm b rest
  · obtain ⟨s, h0, R, hR⟩ := hc
    apply Co.sp_of_wp (W := Still N) (fun _ _ => still)
    apply wp_huffDecode hL hT h0 hb hR.symm
    intro b' rest' g s'
    exact hQ s b' rest' h0 g (by rw [s']; exact hR.symm)
  · obtain ⟨s, h0, hp⟩ : ∃ s, lenOf lens s ≠ 0 ∧ strm b rest <+: huff lens s := by
      by_contra hcon
      apply hno
      intro s h0
      exact ⟨fun h => hc ⟨s, h0, h⟩, fun h => hcon ⟨s, h0, h⟩⟩
    have hlt : (strm b rest).length < lenOf lens s := by
      have h1 := hp.length_le
      rw [huff_length] at h1
      rcases Nat.lt_or_ge (strm b rest).length (lenOf lens s) with h | h
      · exact h
      · have : strm b rest = huff lens s := hp.eq_of_length (by rw [huff_length]; omega)
        exact absurd ⟨s, h0, by rw [this]⟩ hc
    have h15 := lenOf_le hL.h15 s
    have hl := hlt
    rw [strm_length] at hl
    unfold huffDecode
    rw [Co.sp_bind]
    unfold huffRefill
    rw [if_pos (by omega)]
    apply Co.sp_availIn
    intro n hn
    rw [if_pos (by omega)]
    exact sp_huffFill_short hL hT h0 16 hb.1 hp hlt (by omega)

/-- With enough bits there is a symbol. -/
theorem code_present (hL : LensOk lens) {S : List Bool} (h : 15 ≤ S.length) (hno : ¬NoCode lens S) :
    ∃ s R, lenOf lens s ≠ 0 ∧ S = huff lens s ++ R := by
  by_contra hcon
  apply hno
  intro s h0
  have h1 : ¬huff lens s <+: S := fun ⟨R, hR⟩ => hcon ⟨s, R, h0, hR.symm⟩
  refine ⟨h1, fun hp => ?_⟩
  have hle := hp.length_le
  have h15 := lenOf_le hL.h15 s
  rw [huff_length] at hle
  have : S = huff lens s := hp.eq_of_length (by rw [huff_length]; omega)
  exact h1 (by rw [this])

end

/-! ### Literals and matches -/

section
variable {N : Nat} {lit dist : List Nat} {t0 t1 : HuffTable}

/-- Where the decoder is: after some literals and matches that end with `hist` written. -/
structure SymAt (lit dist : List Nat) (B : List Bool) (out : List UInt8) (N : Nat) (S : List Bool) (hist : Bytes) : Prop where
  toks : ∃ toks : List Tok, (∀ t ∈ toks, t.Ok lit dist) ∧ B = toks.flatMap (Tok.bits lit dist) ++ S ∧
    expandToks out toks = some hist.reverse
  bound : hist.length + 258 * S.length ≤ N

/-- The block has no fault. -/
def Clean (lit dist : List Nat) (B : List Bool) (out : List UInt8) : Prop :=
  ∀ toks out' more, (∀ t ∈ toks, t.Ok lit dist) → B = toks.flatMap (Tok.bits lit dist) ++ more →
    expandToks out toks = some out' → ¬FaultAt lit dist out' more

theorem SymAt.clean {B S : List Bool} {out : List UInt8} {hist : Bytes} (h : SymAt lit dist B out N S hist)
    (hc : Clean lit dist B out) : ¬FaultAt lit dist hist.reverse S := by
  obtain ⟨toks, h1, h2, h3⟩ := h.toks
  exact hc toks _ S h1 h2 h3

theorem expandToks_push {out o1 o2 : List UInt8} {toks : List Tok} {t : Tok} (h1 : expandToks out toks = some o1)
    (h2 : t.expand o1 = some o2) : expandToks out (toks ++ [t]) = some o2 := by
  induction toks generalizing out with
  | nil =>
    simp only [expandToks, Option.some.injEq] at h1
    subst h1
    simp [expandToks, h2]
  | cons x xs ih =>
    obtain ⟨o, e1, e2⟩ := expandToks_cons h1
    simp only [List.cons_append, expandToks, e1, Option.bind_some]
    exact ih e2

theorem len_le_258 {i v : Nat} (h : i ≤ 28) (hv : v < 2 ^ lenExtra.getD i 0) : lenBase.getD i 0 + v ≤ 258 := by
  have : ∀ i ≤ 28, lenBase.getD i 0 + 2 ^ lenExtra.getD i 0 ≤ 259 := by decide
  have := this i h
  omega

theorem Tok.expand_le {t : Tok} (hok : t.Ok lit dist) {o o' : List UInt8} (h : t.expand o = some o') :
    o'.length ≤ o.length + 258 := by
  cases t with
  | lit b => simp only [Tok.expand, Option.some.injEq] at h; rw [← h]; simp
  | copy ls le ds de =>
    rw [copyBack_length h]
    have := len_le_258 (i := ls - 257) (by have := hok.2.1; omega) hok.2.2.2.1
    omega

theorem Tok.bits_pos {t : Tok} (hok : t.Ok lit dist) : 1 ≤ (t.bits lit dist).length := by
  cases t with
  | lit b =>
    have : lenOf lit b.toNat ≠ 0 := hok
    rw [Tok.bits, huff_length]; omega
  | copy ls le ds de =>
    have : lenOf lit ls ≠ 0 := hok.2.2.1
    rw [Tok.bits]
    simp only [List.length_append, huff_length]; omega

theorem SymAt.step {B S S' : List Bool} {out : List UInt8} {hist hist' : Bytes} (h : SymAt lit dist B out N S hist) {t : Tok}
    (hok : t.Ok lit dist) (hs : S = t.bits lit dist ++ S') (he : t.expand hist.reverse = some hist'.reverse) :
    SymAt lit dist B out N S' hist' := by
  obtain ⟨⟨toks, h1, h2, h3⟩, h4⟩ := h
  refine ⟨⟨toks ++ [t], ?_, ?_, expandToks_push h3 he⟩, ?_⟩
  · intro x hx
    rcases List.mem_append.1 hx with h | h
    · exact h1 x h
    · rw [List.mem_singleton.1 h]; exact hok
  · rw [h2, hs]; simp [List.flatMap_append]
  · have e1 := Tok.expand_le hok he
    have e2 := Tok.bits_pos hok
    rw [hs, List.length_append] at h4
    simp only [List.length_reverse] at e1
    omega

/-- Room for one more byte. -/
theorem SymAt.lt {B S : List Bool} {out : List UInt8} {hist : Bytes} (h : SymAt lit dist B out N S hist) (hS : S ≠ []) :
    hist.length < N := by
  have := h.bound
  have := List.length_pos_iff.mpr hS
  omega

/-- A match, after its first symbol. -/
theorem sp_doMatch (hL1 : LensOk dist) (hT1 : TableOf dist t1) {B S : List Bool} {out : List UInt8}
    (hclean : Clean lit dist B out) {hist : Bytes} {c : Nat} (hat : SymAt lit dist B out N S hist) {ls : Nat} (h1 : 257 ≤ ls)
    (h0 : lenOf lit ls ≠ 0) {b : BitBuf} {rest : Bytes} (hb : b.Good) (hs : S = huff lit ls ++ strm b rest) {Q : Post BitBuf}
    (hQ : ∀ b' rest' hist' c', b'.Good → SymAt lit dist B out N (strm b' rest') hist' →
      (strm b' rest').length < S.length → Q b' rest' hist' c') :
    (doMatch t1 ls b).sp N Q rest hist c := by
  have hnf := hat.clean hclean
  have h2 : ls ≤ 285 := by
    by_contra hc
    exact hnf (by rw [hs]; exact .badLength ls _ h0 (by omega))
  obtain ⟨e1, e2, e3, e4⟩ := lengthTables (i := ls - 257) (by omega)
  unfold doMatch
  rw [e1, e2, Co.sp_bind]
  apply sp_extraBits hb (by omega)
  intro le b2 rest2 h3 g2 s2
  dsimp only
  rw [s2, ← List.append_assoc] at hs
  rw [Co.sp_bind]
  apply sp_huffDecode hL1 hT1 g2 (fun hn => hnf (by rw [hs]; exact .noDistance ls le _ h0 h1 h2 h3 hn))
  intro ds b3 rest3 hd0 g3 s3
  dsimp only
  rw [s3, ← List.append_assoc] at hs
  have h4 : ds ≤ 29 := by
    by_contra hc
    exact hnf (by rw [hs]; exact .badDistance ls le ds _ h0 h1 h2 h3 hd0 (by omega))
  obtain ⟨e5, e6, e7, e8⟩ := distTables h4
  rw [e5, e6, Co.sp_bind]
  apply sp_extraBits g3 (by omega)
  intro de b4 rest4 h6 g4 s4
  dsimp only
  rw [s4, ← List.append_assoc] at hs
  rw [Co.sp_bind]
  unfold putMatch
  rw [if_neg (by omega)]
  have hok : (Tok.copy ls le ds de).Ok lit dist := ⟨h1, h2, h0, h3, h4, hd0, h6⟩
  have hs' : S = (Tok.copy ls le ds de).bits lit dist ++ strm b4 rest4 := hs
  have hpos := Tok.bits_pos hok
  have hlt : (strm b4 rest4).length < S.length := by rw [hs', List.length_append]; omega
  cases he : (Tok.copy ls le ds de).expand hist.reverse with
  | none => exact absurd (by rw [hs']; exact .tooFar _ _ hok he) hnf
  | some o =>
    have hol := Tok.expand_le hok he
    rw [List.length_reverse] at hol
    have hbd := hat.bound
    apply Co.sp_of_wp (W := Still N) (fun _ _ => still)
    apply wp_copyMatch _ _ (by omega) (fun h h1 h2 => by show h < N; omega) he
    intro hist' c' hh
    exact hQ b4 rest4 hist' c' g4 (hat.step hok hs' (by rw [hh]; exact he)) hlt

/-- **The symbols of a block.** -/
theorem sp_symLoop (hL0 : LensOk lit) (hT0 : TableOf lit t0) (hL1 : LensOk dist) (hT1 : TableOf dist t1)
    {B : List Bool} {out : List UInt8} (hclean : Clean lit dist B out) {Q : Post BitBuf}
    (hQ : ∀ b' rest' hist' c', b'.Good → lenOf lit 256 ≠ 0 → SymAt lit dist B out N (huff lit 256 ++ strm b' rest') hist' →
      Q b' rest' hist' c') (f : Nat) :
    ∀ {b : BitBuf} {rest hist : Bytes} {c : Nat}, b.Good → SymAt lit dist B out N (strm b rest) hist →
    (strm b rest).length < f → (symLoop false t0 t1 f b).sp N Q rest hist c := by
  induction f with
  | zero => intro b rest hist c _ _ h; omega
  | succ f ih =>
    intro b rest hist c hb hat hf
    -- a match, then the rest
    have hmatch : ∀ {b2 : BitBuf} {rest2 hist2 : Bytes} {c2 ls : Nat} {S : List Bool}, S.length < f + 1 →
        SymAt lit dist B out N S hist2 → 257 ≤ ls → lenOf lit ls ≠ 0 → b2.Good → S = huff lit ls ++ strm b2 rest2 →
        (doMatch t1 ls b2 >>= fun b => symLoop false t0 t1 f b).sp N Q rest2 hist2 c2 := by
      intro b2 rest2 hist2 c2 ls S hS hat2 h1 h0 hb2 hs
      rw [Co.sp_bind]
      apply sp_doMatch hL1 hT1 hclean hat2 h1 h0 hb2 hs
      intro b' rest' hist' c' g a l
      exact ih g a (by omega)
    -- a literal
    have hlit : ∀ {S S' : List Bool} {hist2 : Bytes} {s : Nat}, SymAt lit dist B out N S hist2 → lenOf lit s ≠ 0 → s < 256 →
        S = huff lit s ++ S' → SymAt lit dist B out N S' (UInt8.ofNat s :: hist2) ∧ hist2.length < N ∧ S'.length < S.length := by
      intro S S' hist2 s hat2 h0 hlt hs
      have hx : (UInt8.ofNat s).toNat = s := UInt8.toNat_ofNat_of_lt' hlt
      have hok : (Tok.lit (UInt8.ofNat s)).Ok lit dist := by show lenOf lit _ ≠ 0; rw [hx]; exact h0
      have hs' : S = (Tok.lit (UInt8.ofNat s)).bits lit dist ++ S' := by rw [Tok.bits, hx]; exact hs
      have hpos := Tok.bits_pos hok
      have hl : S.length = (Tok.bits lit dist (Tok.lit (UInt8.ofNat s))).length + S'.length := by
        rw [hs', List.length_append]
      exact ⟨hat2.step hok hs' (by simp [Tok.expand]), hat2.lt (by intro h; rw [h] at hl; simp at hl; omega), by omega⟩
    rw [symLoop]
    apply Co.sp_availIn
    intro nIn hIn
    apply Co.sp_availOut
    intro nOut hOut
    by_cases hslow : nIn < 4 ∨ nOut < 2
    · rw [if_pos hslow, Co.sp_bind]
      apply sp_huffDecode hL0 hT0 hb (fun hn => hat.clean hclean (.noSymbol _ hn))
      intro s b' rest' h0 g hs
      dsimp only
      by_cases h256 : s ≥ 256
      · rw [if_pos h256]
        by_cases he : s = 256
        · rw [if_pos he]
          subst he
          exact hQ b' rest' hist nOut g h0 (by rw [← hs]; exact hat)
        · rw [if_neg he]
          exact hmatch (by omega) hat (by omega) h0 g hs
      · rw [if_neg h256]
        obtain ⟨a1, a2, a3⟩ := hlit hat h0 (by omega) hs
        apply Co.sp_waitOut a2
        apply Co.sp_put (by omega) a2
        exact ih g a1 (by omega)
    · rw [if_neg hslow, Co.sp_bind]
      apply Co.sp_of_wp (W := Still N) (fun _ _ => still)
      apply wp_refill4 hb (by omega)
      intro b2 rest2 hb2 hnum hs0
      rw [← hs0] at hat hf
      have hlen2 := strm_length b2 rest2
      obtain ⟨s, R, h0, hs⟩ := code_present hL0 (by omega) (fun hn => hat.clean hclean (.noSymbol _ hn))
      obtain ⟨raw, d1, d2, d3, d4, d5⟩ := decode_now (s := s) hL0 hT0 h0 hb2 (by omega) hs
      simp only [d1]
      generalize hb3 : b2.drop (lenOf lit s) = b3 at d3 d4 d5
      rw [← d4] at hs
      by_cases h256 : 256 ≤ s
      · rw [if_pos ((and_256 d2).mpr h256), and_511 d2]
        by_cases he : s = 256
        · rw [if_pos he]
          subst he
          exact hQ b3 rest2 hist nOut d3 h0 (by rw [← hs]; exact hat)
        · rw [if_neg he]
          exact hmatch (by omega) hat (by omega) h0 d3 hs
      · rw [if_neg (by rw [and_256 d2]; exact h256)]
        obtain ⟨a1, a2, a3⟩ := hlit hat h0 (by omega) hs
        have hx : (UInt8.ofNat s).toNat = s := UInt8.toNat_ofNat_of_lt' (by show _ < 256; omega)
        have hraw : UInt8.ofNat raw = UInt8.ofNat s := ofNat_raw (by rw [hx]; exact d2)
        rw [hraw]
        have hlen3 := strm_length b3 rest2
        obtain ⟨s2, R2, k0, ks⟩ := code_present hL0 (by omega) (fun hn => a1.clean hclean (.noSymbol _ hn))
        obtain ⟨raw2, c1, c2, c3, c4, c5⟩ := decode_now (s := s2) hL0 hT0 k0 d3 (by omega) ks
        simp only [c1]
        generalize hb4 : b3.drop (lenOf lit s2) = b4 at c3 c4 c5
        rw [← c4] at ks
        apply Co.sp_put (by omega) a2
        by_cases k256 : 256 ≤ s2
        · rw [if_pos ((and_256 c2).mpr k256), and_511 c2]
          by_cases he : s2 = 256
          · rw [if_pos he]
            subst he
            exact hQ b4 rest2 _ _ c3 k0 (by rw [← ks]; exact a1)
          · rw [if_neg he]
            exact hmatch (by omega) a1 (by omega) k0 c3 ks
        · rw [if_neg (by rw [and_256 c2]; exact k256)]
          obtain ⟨a4, a5, a6⟩ := hlit a1 k0 (by omega) ks
          have hx2 : (UInt8.ofNat s2).toNat = s2 := UInt8.toNat_ofNat_of_lt' (by show _ < 256; omega)
          have hraw2 : UInt8.ofNat raw2 = UInt8.ofNat s2 := ofNat_raw (by rw [hx2]; exact c2)
          rw [hraw2]
          apply Co.sp_put (by omega) a5
          exact ih c3 a4 (by omega)

end

end Npy
