import Verif.Proofs.HuffBuild
/-!
# What the coroutine does on any honest buffers

`Co.wp W co Q rest hist c`: run on the bytes `rest` (however they are cut into buffers) with `hist` already written, the
coroutine finishes with `Q`. Whenever it waits for room or writes a byte, `W` holds of the number of bytes written and of the number of
bytes unread; `c` is a lower bound for the room in the output buffer.
-/

namespace Npy
open Spec.Deflate

abbrev Post (α : Type) := α → Bytes → Bytes → Nat → Prop

def Co.wp {α : Type} (W : Nat → Nat → Prop) : Co α → Post α → Bytes → Bytes → Nat → Prop
  | .pure a, Q, rest, hist, c => Q a rest hist c
  | .stop _, _, _, _, _ => False
  | .getByte k, Q, rest, hist, c =>
    match rest with
    | [] => False
    | b :: bs => (k b).wp W Q bs hist c
  | .availIn k, Q, rest, hist, c => ∀ n ≤ rest.length, (k n).wp W Q rest hist c
  | .availOut k, Q, rest, hist, c => ∀ m, c ≤ m → (k m).wp W Q rest hist m
  | .waitOut k, Q, rest, hist, c => W hist.length rest.length ∧ k.wp W Q rest hist (max c 1)
  | .put b k, Q, rest, hist, c => 0 < c ∧ W hist.length rest.length ∧ k.wp W Q rest (b :: hist) (c - 1)
  | .putBack d k, Q, rest, hist, c =>
    0 < c ∧ W hist.length rest.length ∧ ∃ b, hist[(d + 32767) % 32768]? = some b ∧ k.wp W Q rest (b :: hist) (c - 1)

section
variable {α β : Type} {W : Nat → Nat → Prop}

theorem Co.wp_bind (x : Co α) (f : α → Co β) (Q : Post β) (rest hist : Bytes) (c : Nat) :
    (x >>= f).wp W Q rest hist c ↔ x.wp W (fun a r h c => (f a).wp W Q r h c) rest hist c := by
  show (Co.bind x f).wp W Q rest hist c ↔ _
  induction x generalizing rest hist c with
  | pure a => exact Iff.rfl
  | stop r => exact Iff.rfl
  | getByte k ih =>
    match rest with
    | [] => exact Iff.rfl
    | b :: bs => exact ih b bs hist c
  | availIn k ih => exact forall_congr' fun n => forall_congr' fun _ => ih n rest hist c
  | availOut k ih => exact forall_congr' fun n => forall_congr' fun _ => ih n rest hist n
  | waitOut k ih => exact and_congr_right fun _ => ih rest hist _
  | put b k ih => exact and_congr_right fun _ => and_congr_right fun _ => ih rest _ _
  | putBack d k ih => exact and_congr_right fun _ => and_congr_right fun _ => exists_congr fun _ => and_congr_right fun _ => ih rest _ _

theorem Co.wp_mono {x : Co α} {Q Q' : Post α} {rest hist : Bytes} {c : Nat} (h : x.wp W Q rest hist c)
    (hQ : ∀ a r h c, Q a r h c → Q' a r h c) : x.wp W Q' rest hist c := by
  induction x generalizing rest hist c with
  | pure a => exact hQ _ _ _ _ h
  | stop r => exact h
  | getByte k ih =>
    match rest, h with
    | [], h => exact h
    | b :: bs, h => exact ih b h
  | availIn k ih => exact fun n hn => ih n (h n hn)
  | availOut k ih => exact fun n hn => ih n (h n hn)
  | waitOut k ih => exact ⟨h.1, ih h.2⟩
  | put b k ih => exact ⟨h.1, h.2.1, ih h.2.2⟩
  | putBack d k ih => exact ⟨h.1, h.2.1, h.2.2.choose, h.2.2.choose_spec.1, ih h.2.2.choose_spec.2⟩

theorem Co.wp_byte {f : UInt8 → Co β} {Q : Post β} {b : UInt8} {rest hist : Bytes} {c : Nat}
    (h : (f b).wp W Q rest hist c) : (coByte >>= f).wp W Q (b :: rest) hist c := by
  rw [Co.wp_bind]; exact h

theorem Co.wp_pure {a : α} {Q : Post α} {rest hist : Bytes} {c : Nat}
    (h : Q a rest hist c) : (pure a : Co α).wp W Q rest hist c := h

theorem Co.wp_pure_bind {a : α} {f : α → Co β} {Q : Post β} {rest hist : Bytes} {c : Nat}
    (h : (f a).wp W Q rest hist c) : ((pure a : Co α) >>= f).wp W Q rest hist c := by
  rw [Co.wp_bind]; exact h

theorem Co.wp_availIn {f : Nat → Co β} {Q : Post β} {rest hist : Bytes} {c : Nat}
    (h : ∀ n ≤ rest.length, (f n).wp W Q rest hist c) : (coAvailIn >>= f).wp W Q rest hist c := by
  rw [Co.wp_bind]; exact h

theorem Co.wp_availOut {f : Nat → Co β} {Q : Post β} {rest hist : Bytes} {c : Nat}
    (h : ∀ n, c ≤ n → (f n).wp W Q rest hist n) : (coAvailOut >>= f).wp W Q rest hist c := by
  rw [Co.wp_bind]; exact h

theorem Co.wp_waitOut {f : Unit → Co β} {Q : Post β} {rest hist : Bytes} {c : Nat} (h1 : W hist.length rest.length)
    (h : (f ()).wp W Q rest hist (max c 1)) : (coWaitOut >>= f).wp W Q rest hist c := by
  rw [Co.wp_bind]; exact ⟨h1, h⟩

theorem Co.wp_put {f : Unit → Co β} {Q : Post β} {b : UInt8} {rest hist : Bytes} {c : Nat} (h1 : 0 < c)
    (h2 : W hist.length rest.length) (h : (f ()).wp W Q rest (b :: hist) (c - 1)) : (coPut b >>= f).wp W Q rest hist c := by
  rw [Co.wp_bind]; exact ⟨h1, h2, h⟩

end

/-! ### Bits -/

/-- The bit buffer is in order. -/
def BitBuf.Good (b : BitBuf) : Prop := b.Ok ∧ b.num ≤ 62

section
variable {W : Nat → Nat → Prop} {hist : Bytes} {c : Nat}

theorem rest_ne_nil {b : BitBuf} {rest : Bytes} {n : Nat} (h : n ≤ (strm b rest).length) (hn : b.num < n) :
    ∃ x xs, rest = x :: xs := by
  rw [strm_length] at h
  match rest with
  | [] => simp at h; omega
  | x :: xs => exact ⟨x, xs, rfl⟩

theorem wp_needBits {n : Nat} (f : Nat) {b : BitBuf} {rest : Bytes} (hb : b.Ok) (hn : b.num < n)
    (hl : n ≤ (strm b rest).length) (hf : n ≤ b.num + 8 * f) (h16 : n ≤ 16) {Q : Post BitBuf}
    (hQ : ∀ b' rest', b'.Ok → n ≤ b'.num → b'.num ≤ 23 → strm b' rest' = strm b rest → Q b' rest' hist c) :
    (needBits n f b).wp W Q rest hist c := by
  induction f generalizing b rest with
  | zero => omega
  | succ f ih =>
    obtain ⟨x, xs, rfl⟩ := rest_ne_nil hl hn
    rw [needBits]
    apply Co.wp_byte
    have e := strm_feed hb x xs
    by_cases h : (b.feed x).num < n
    · rw [if_pos h]
      exact ih (hb.feed x) h (by rw [e]; exact hl) (by rw [BitBuf.feed_num]; omega)
        (fun b' rest' h1 h2 h3 h4 => hQ b' rest' h1 h2 h3 (h4.trans e))
    · rw [if_neg h]
      exact hQ _ _ (hb.feed x) (by omega) (by rw [BitBuf.feed_num]; omega) e

theorem wp_getBits {n v : Nat} {b : BitBuf} {rest : Bytes} {R : List Bool} (hb : b.Good)
    (hs : strm b rest = lsb n v ++ R) (hv : v < 2 ^ n) (h16 : n ≤ 16) {Q : Post (Nat × BitBuf)}
    (hQ : ∀ b' rest', b'.Good → strm b' rest' = R → Q (v, b') rest' hist c) :
    (getBits n b).wp W Q rest hist c := by
  have fin : ∀ b' rest', b'.Ok → n ≤ b'.num → b'.num ≤ 62 → strm b' rest' = strm b rest →
      Q (b'.buf &&& ((1 <<< n) - 1), b'.drop n) rest' hist c := by
    intro b' rest' h1 h2 h3 h4
    have h5 := h4.trans hs
    have h6 := strm_prefix h5 (by rw [lsb_length]; exact h2)
    have h7 : b'.buf &&& ((1 <<< n) - 1) = v := by
      rw [mask_eq]
      have := (prefix_lsb_iff (by rw [lsb_length]; exact h2)).mp h6
      rwa [lsb_length, bval_lsb, Nat.mod_eq_of_lt hv] at this
    rw [h7]
    have h8 := strm_drop h5 (by rw [lsb_length]; exact h2)
    rw [lsb_length] at h8
    exact hQ _ _ ⟨h1.drop h2, by rw [BitBuf.drop_num]; omega⟩ h8
  unfold getBits
  rw [Co.wp_bind]
  unfold ensureBits
  by_cases h : b.num < n
  · rw [if_pos h]
    apply wp_needBits _ hb.1 h (by rw [hs, List.length_append, lsb_length]; omega) (by omega) h16
    intro b' rest' h1 h2 h3 h4
    exact fin b' rest' h1 h2 (by omega) h4
  · rw [if_neg h]
    exact fin b rest hb.1 (by omega) hb.2 rfl

/-! ### Symbols -/

variable {lens : List Nat} {t : HuffTable}

theorem fillWalk_full {M : Nat} {own : Nat → List Bool} (hT : TInv lens lens.length t.look t.tree M own) {s : Nat}
    {b : BitBuf} (hp : huff lens s <+: b.bits) :
    ∀ (f d k : Nat), k < M → own k = (huff lens s).take d → 10 ≤ d → d < lenOf lens s → lenOf lens s - d ≤ f →
    fillWalk t b f (node k) d = (s : Int) := by
  have hn : lenOf lens s ≤ b.num := by
    have := hp.length_le; rwa [huff_length, BitBuf.bits_length] at this
  intro f
  induction f with
  | zero => intro d k _ _ _ h1 h2; omega
  | succ f ih =>
    intro d k hk hown h10 hd hf
    have hdl : d < (huff lens s).length := by rw [huff_length]; exact hd
    rw [fillWalk]
    rw [treeAt_node t k b.buf d hdl ((List.take_prefix _ _).trans hp)]
    rcases hT.step hk hown h10 hdl with ⟨h1, k', hk', h2, h3⟩ | ⟨h1, h2⟩
    · rw [h2, if_pos ⟨node_neg k', by omega⟩]
      exact ih (d + 1) k' hk' h3 (by omega) h1 (by omega)
    · rw [h2, if_neg (by omega)]

theorem fillWalk_part {M : Nat} {own : Nat → List Bool} (hT : TInv lens lens.length t.look t.tree M own) {s : Nat}
    {b : BitBuf} (hp : b.bits <+: huff lens s) (hn : b.num < lenOf lens s) :
    ∀ (f d k : Nat), k < M → own k = (huff lens s).take d → 10 ≤ d → d < b.num →
    fillWalk t b f (node k) d < 0 := by
  intro f
  induction f with
  | zero => intro d k _ _ _ _; exact node_neg k
  | succ f ih =>
    intro d k hk hown h10 hd
    have hdl : d < (huff lens s).length := by rw [huff_length]; omega
    rw [fillWalk]
    have hp2 : (huff lens s).take (d + 1) <+: lsb b.num b.buf := by
      apply List.prefix_of_prefix_length_le (List.take_prefix _ _) hp
      rw [List.length_take, BitBuf.bits_length]; omega
    rw [treeAt_node t k b.buf d hdl hp2]
    rcases hT.step hk hown h10 hdl with ⟨h1, k', hk', h2, h3⟩ | ⟨h1, h2⟩
    · rw [h2]
      split
      · rename_i h4
        exact ih (d + 1) k' hk' h3 (by omega) (by omega)
      · exact node_neg k'
    · omega

/-- The refill loop stops exactly when the whole code is there. -/
theorem fillEnough_eq (hL : LensOk lens) (hT : TableOf lens t) {s : Nat} (h0 : lenOf lens s ≠ 0) {b : BitBuf}
    {rest : Bytes} {R : List Bool} (hs : strm b rest = huff lens s ++ R) :
    fillEnough t b = decide (lenOf lens s ≤ b.num) := by
  have hslt := lenOf_lt h0
  have hlen := hL.hlen
  have hb0 : b.bits <+: strm b rest := List.prefix_append _ _
  have hs0 : huff lens s <+: strm b rest := ⟨R, hs.symm⟩
  unfold fillEnough
  by_cases hn : lenOf lens s ≤ b.num
  · have hp : huff lens s <+: b.bits := strm_prefix hs (by rw [huff_length]; exact hn)
    rw [decide_eq_true hn]
    by_cases h10 : lenOf lens s ≤ 10
    · simp only [hT.short h0 h10 hp]
      rw [if_pos (by omega), Int.toNat_natCast, or_shiftRight (by omega)]
      simp [h0, hn]
    · obtain ⟨k, h1, h2⟩ := hT.root (by omega) ((List.take_prefix 10 _).trans hp)
      obtain ⟨M, own, hT⟩ := hT
      obtain ⟨hk, hown⟩ := h2 M own hT
      have := node_neg k
      simp only [h1]
      rw [if_neg (by omega), if_pos (by omega), fillWalk_full hT hp b.num 10 k hk hown (by omega) (by omega) (by omega)]
      simp
  · rw [decide_eq_false hn]
    have hp : b.bits <+: huff lens s :=
      List.prefix_of_prefix_length_le hb0 hs0 (by rw [BitBuf.bits_length, huff_length]; omega)
    by_cases hneg : t.lookAt b.buf ≥ 0
    · rw [if_pos hneg]
      obtain ⟨M, own, hT⟩ := hT
      by_contra hc
      simp only [Bool.not_eq_false, Bool.and_eq_true, decide_eq_true_eq, ne_eq] at hc
      obtain ⟨hc1, hc2⟩ := hc
      have hpos : 0 < t.lookAt b.buf := by
        rcases Int.lt_or_eq_of_le hneg with h | h
        · exact h
        · rw [← h] at hc1; simp at hc1
      rw [lookAt_eq] at hpos hc1 hc2
      obtain ⟨s', _, h1, h2, h3, h4⟩ := hT.lookPos _ (Nat.mod_lt _ (by omega)) hpos
      rw [h3, Int.toNat_natCast, or_shiftRight (by have := lenOf_lt h1; omega)] at hc1 hc2
      rw [lsb10_mod] at h4
      have h5 : huff lens s' <+: b.bits := prefix_lsb h4 (by rw [huff_length]; exact hc2)
      have := hL.unique h1 h0 (h5.trans hb0) hs0
      subst this
      omega
    · rw [if_neg hneg]
      by_cases hn10 : b.num > 10
      · rw [if_pos hn10]
        have hp10 : (huff lens s).take 10 <+: lsb b.num b.buf :=
          List.prefix_of_prefix_length_le (List.take_prefix _ _) hp
            (by rw [List.length_take, lsb_length]; omega)
        obtain ⟨k, h1, h2⟩ := hT.root (by omega) hp10
        obtain ⟨M, own, hT⟩ := hT
        obtain ⟨hk, hown⟩ := h2 M own hT
        rw [h1]
        have := fillWalk_part hT hp (by omega) b.num 10 k hk hown (by omega) (by omega)
        simp; exact this
      · rw [if_neg hn10]

theorem wp_huffFill (hL : LensOk lens) (hT : TableOf lens t) {s : Nat} (h0 : lenOf lens s ≠ 0) (f : Nat) {b : BitBuf}
    {rest : Bytes} {R : List Bool} (hb : b.Ok) (hs : strm b rest = huff lens s ++ R) (h15 : b.num < 15)
    (hf : 15 ≤ b.num + 8 * f) {Q : Post BitBuf}
    (hQ : ∀ b' rest', b'.Ok → lenOf lens s ≤ b'.num → b'.num ≤ 22 → strm b' rest' = strm b rest → Q b' rest' hist c) :
    (huffFill t f b).wp W Q rest hist c := by
  induction f generalizing b rest with
  | zero => omega
  | succ f ih =>
    rw [huffFill, fillEnough_eq hL hT h0 hs]
    by_cases hn : lenOf lens s ≤ b.num
    · rw [if_pos (by simpa using hn)]
      exact hQ b rest hb hn (by omega) rfl
    · rw [if_neg (by simpa using hn)]
      obtain ⟨x, xs, rfl⟩ := rest_ne_nil (n := lenOf lens s) (b := b) (rest := rest)
        (by rw [hs, List.length_append, huff_length]; omega) (by omega)
      apply Co.wp_byte
      have e := strm_feed hb x xs
      by_cases h : (b.feed x).num < 15
      · rw [if_pos h]
        exact ih (hb.feed x) (e.trans hs) h (by rw [BitBuf.feed_num]; omega)
          (fun b' rest' h1 h2 h3 h4 => hQ b' rest' h1 h2 h3 (h4.trans e))
      · rw [if_neg h]
        have := lenOf_le hL.h15 s
        exact hQ _ _ (hb.feed x) (by omega) (by rw [BitBuf.feed_num]; omega) e

/-- **Decoding a symbol.** -/
theorem wp_huffDecode (hL : LensOk lens) (hT : TableOf lens t) {s : Nat} (h0 : lenOf lens s ≠ 0) {b : BitBuf}
    {rest : Bytes} {R : List Bool} (hb : b.Good) (hs : strm b rest = huff lens s ++ R) {Q : Post (Nat × BitBuf)}
    (hQ : ∀ b' rest', b'.Good → strm b' rest' = R → Q (s, b') rest' hist c) :
    (huffDecode t b).wp W Q rest hist c := by
  have h15 := lenOf_le hL.h15 s
  have hslt := lenOf_lt h0
  have hlen := hL.hlen
  have fin : ∀ b' rest', b'.Ok → lenOf lens s ≤ b'.num → b'.num ≤ 62 → strm b' rest' = strm b rest →
      Q ((decodeRaw t b'.buf).1 &&& 511, b'.drop (decodeRaw t b'.buf).2) rest' hist c := by
    intro b' rest' h1 h2 h3 h4
    have h5 := h4.trans hs
    have h6 : huff lens s <+: lsb b'.num b'.buf := strm_prefix h5 (by rw [huff_length]; exact h2)
    obtain ⟨raw, h7, h8⟩ := decodeRaw_ok hL hT h0 h6
    rw [h7]
    have h9 : raw &&& 511 = s := by
      rw [show (511 : Nat) = 2 ^ 9 - 1 from rfl, Nat.and_two_pow_sub_one_eq_mod]; exact h8
    have h10 := strm_drop h5 (by rw [huff_length]; exact h2)
    rw [huff_length] at h10
    simp only [h9]
    exact hQ _ _ ⟨h1.drop h2, by rw [BitBuf.drop_num]; omega⟩ h10
  unfold huffDecode
  rw [Co.wp_bind]
  unfold huffRefill
  by_cases h : b.num < 15
  · rw [if_pos h]
    apply Co.wp_availIn
    intro n hn
    by_cases h2 : n < 2
    · rw [if_pos h2]
      apply wp_huffFill hL hT h0 16 hb.1 hs h (by omega)
      intro b' rest' h3 h4 h5 h6
      exact fin b' rest' h3 h4 (by omega) h6
    · rw [if_neg h2]
      match rest, hn with
      | x :: y :: xs, _ =>
        apply Co.wp_byte
        apply Co.wp_byte
        have e1 := strm_feed hb.1 x (y :: xs)
        have e2 := strm_feed (hb.1.feed x) y xs
        exact fin _ _ ((hb.1.feed x).feed y) (by rw [BitBuf.feed_num, BitBuf.feed_num]; omega)
          (by rw [BitBuf.feed_num, BitBuf.feed_num]; omega) (e2.trans e1)
      | [_], hn => simp at hn; omega
      | [], hn => simp at hn; omega
  · rw [if_neg h]
    exact fin b rest hb.1 (by omega) hb.2 rfl

end

end Npy
