import Verif.Proofs.DeflDyn
/-!
# Literals and matches as the compressor records and writes them
-/

namespace Npy
open Spec.Deflate

/-- What is recorded: a literal; a match with its length minus 3 and its distance minus 1. -/
inductive LzTok
  | lit (b : UInt8)
  | mat (l d : Nat)
  deriving DecidableEq, Repr

def LzTok.Rng : LzTok → Prop
  | .lit _ => True
  | .mat l d => l < 256 ∧ d < 32768

def LzTok.flag : LzTok → Nat
  | .lit _ => 0
  | .mat _ _ => 1

def LzTok.bytes : LzTok → Bytes
  | .lit b => [b]
  | .mat l d => [UInt8.ofNat l, UInt8.ofNat (d &&& 0xFF), UInt8.ofNat (d >>> 8)]

/-- Number of extra bits of the distance. -/
def distExt (d : Nat) : Nat := if d < 512 then smallDistExtra.getD (d &&& 511) 0 else largeDistExtra.getD (d >>> 8) 0

/-- The token of the format. -/
def LzTok.tok : LzTok → Tok
  | .lit b => .lit b
  | .mat l d =>
    .copy (lenSymTab.getD l 0) (l % 2 ^ lenExtraTab.getD l 0) (distSym d) (d % 2 ^ distExt d)

/-! ### Tables -/

theorem lenTab_ok : ∀ l < 256, 257 ≤ lenSymTab.getD l 0 ∧ lenSymTab.getD l 0 ≤ 285 ∧
    lenExtraTab.getD l 0 = lenExtra.getD (lenSymTab.getD l 0 - 257) 0 ∧
    lenBase.getD (lenSymTab.getD l 0 - 257) 0 + l % 2 ^ lenExtraTab.getD l 0 = l + 3 ∧ lenExtraTab.getD l 0 ≤ 5 := by
  decide +kernel

theorem smallDist_ok : ∀ d < 512, smallDistSym.getD d 0 ≤ 29 ∧
    smallDistExtra.getD d 0 = distExtra.getD (smallDistSym.getD d 0) 0 ∧
    distBase.getD (smallDistSym.getD d 0) 0 + d % 2 ^ smallDistExtra.getD d 0 = d + 1 ∧ smallDistExtra.getD d 0 ≤ 13 := by
  decide +kernel

theorem largeDist_ok : ∀ h < 128, 2 ≤ h → largeDistSym.getD h 0 ≤ 29 ∧ 8 ≤ largeDistExtra.getD h 0 ∧
    largeDistExtra.getD h 0 = distExtra.getD (largeDistSym.getD h 0) 0 ∧
    distBase.getD (largeDistSym.getD h 0) 0 + 256 * (h % 2 ^ (largeDistExtra.getD h 0 - 8)) = 256 * h + 1 ∧
    largeDistExtra.getD h 0 ≤ 13 := by
  decide +kernel

theorem dl_and_511 (d : Nat) : d &&& 511 = d % 512 := Nat.and_two_pow_sub_one_eq_mod _ 9
theorem dl_and_127 (d : Nat) : d &&& 127 = d % 128 := Nat.and_two_pow_sub_one_eq_mod _ 7
theorem dl_and_255 (d : Nat) : d &&& 255 = d % 256 := Nat.and_two_pow_sub_one_eq_mod _ 8
theorem dl_shr_8 (d : Nat) : d >>> 8 = d / 256 := Nat.shiftRight_eq_div_pow _ 8

theorem distTab_ok (d : Nat) (hd : d < 32768) : distSym d ≤ 29 ∧ distExt d = distExtra.getD (distSym d) 0 ∧
    distBase.getD (distSym d) 0 + d % 2 ^ distExt d = d + 1 ∧ distExt d ≤ 13 := by
  unfold distSym distExt
  by_cases h : d < 512
  · rw [if_pos h, if_pos h, dl_and_511, Nat.mod_eq_of_lt h]
    exact smallDist_ok d h
  · rw [if_neg h, if_neg h, dl_shr_8, dl_and_127, Nat.mod_eq_of_lt (show d / 256 < 128 by omega)]
    obtain ⟨h1, h2, h3, h4, h5⟩ := largeDist_ok (d / 256) (by omega) (by omega)
    refine ⟨h1, h3, ?_, h5⟩
    obtain ⟨x, hx⟩ : ∃ x, largeDistExtra.getD (d / 256) 0 = 8 + x := ⟨largeDistExtra.getD (d / 256) 0 - 8, by omega⟩
    rw [hx] at h4 ⊢
    rw [show 8 + x - 8 = x by omega] at h4
    have : d % 2 ^ (8 + x) = d % 256 + 256 * (d / 256 % 2 ^ x) := by
      rw [pow_add]
      exact Nat.mod_mul
    rw [this]
    omega

/-- The token is one of the format, with codes for its symbols. -/
theorem LzTok.ok {t : LzTok} (hr : t.Rng) {lit dist : List Nat}
    (hu : match t with
      | .lit b => lenOf lit b.toNat ≠ 0
      | .mat l d => lenOf lit (lenSymTab.getD l 0) ≠ 0 ∧ lenOf dist (distSym d) ≠ 0) : t.tok.Ok lit dist := by
  cases t with
  | lit b => exact hu
  | mat l d =>
    obtain ⟨h1, h2, h3, -, -⟩ := lenTab_ok l hr.1
    obtain ⟨g1, g2, -, -⟩ := distTab_ok d hr.2
    refine ⟨h1, h2, hu.1, ?_, g1, hu.2, ?_⟩
    · rw [← h3]; exact Nat.mod_lt _ (by positivity)
    · rw [← g2]; exact Nat.mod_lt _ (by positivity)

/-! ### Reading the codes back -/

/-- From the flags `flags` and the bytes `p` the tokens are read. -/
def Reads : List LzTok → Nat → Bytes → Prop
  | [], _, p => p = []
  | t :: ts, flags, p =>
    (lzFlags flags p).1 % 2 = t.flag ∧ ∃ p', (lzFlags flags p).2 = t.bytes ++ p' ∧ Reads ts ((lzFlags flags p).1 >>> 1) p'

theorem LzTok.bytes_ne (t : LzTok) : t.bytes ≠ [] := by cases t <;> simp [LzTok.bytes]

theorem Reads.nil_iff {ts : List LzTok} {flags : Nat} {p : Bytes} (h : Reads ts flags p) : p = [] ↔ ts = [] := by
  cases ts with
  | nil => simp [Reads] at h; simp [h]
  | cons t ts =>
    simp only [reduceCtorEq, iff_false]
    rintro rfl
    obtain ⟨-, p', h2, -⟩ := h
    have : (lzFlags flags []).2 = [] := by unfold lzFlags; split <;> rfl
    rw [this] at h2
    have := congrArg List.length h2
    have := t.bytes_ne
    simp_all

theorem lzFlags_id {flags : Nat} (p : Bytes) (h : flags ≠ 1) : lzFlags flags p = (flags, p) := by rw [lzFlags, if_neg h]

/-- The flags of a group of tokens as a number. -/
def flagNum : List LzTok → Nat
  | [] => 0
  | t :: ts => t.flag + 2 * flagNum ts

theorem LzTok.flag_lt (t : LzTok) : t.flag < 2 := by cases t <;> simp [LzTok.flag]

theorem flagNum_lt (g : List LzTok) : flagNum g < 2 ^ g.length := by
  induction g with
  | nil => simp [flagNum]
  | cons t g ih =>
    rw [flagNum, List.length_cons, pow_succ]
    have := t.flag_lt
    omega

theorem reads_in (g : List LzTok) (e : Nat) (ts : List LzTok) (rest : Bytes)
    (h : (ts = [] ∧ rest = []) ∨ (e = 0 ∧ Reads ts 1 rest)) :
    Reads (g ++ ts) (flagNum g + 2 ^ (g.length + e)) (g.flatMap LzTok.bytes ++ rest) := by
  induction g with
  | nil =>
    simp only [List.nil_append, flagNum, List.length_nil, Nat.zero_add, List.flatMap_nil]
    rcases h with ⟨rfl, rfl⟩ | ⟨rfl, h⟩
    · rfl
    · exact h
  | cons t g ih =>
    have hp : 0 < 2 ^ (g.length + e) := by positivity
    have hf : flagNum (t :: g) + 2 ^ ((t :: g).length + e) = t.flag + 2 * (flagNum g + 2 ^ (g.length + e)) := by
      rw [flagNum, List.length_cons, show g.length + 1 + e = g.length + e + 1 by omega, pow_succ]
      ring
    have hne : t.flag + 2 * (flagNum g + 2 ^ (g.length + e)) ≠ 1 := by omega
    rw [hf, List.cons_append, Reads, lzFlags_id _ hne]
    have := t.flag_lt
    refine ⟨by simp only; omega, g.flatMap LzTok.bytes ++ rest, by simp [List.flatMap_cons], ?_⟩
    have e2 : (t.flag + 2 * (flagNum g + 2 ^ (g.length + e))) >>> 1 = flagNum g + 2 ^ (g.length + e) := by
      rw [Nat.shiftRight_eq_div_pow]
      omega
    rw [e2]
    exact ih

/-- The bytes of a group. -/
def groupBytes (g : List LzTok) : Bytes := UInt8.ofNat (flagNum g) :: g.flatMap LzTok.bytes

theorem reads_group (g : List LzTok) (hg : g ≠ []) (h8 : g.length ≤ 8) (ts : List LzTok) (rest : Bytes)
    (h : (ts = [] ∧ rest = []) ∨ (g.length = 8 ∧ Reads ts 1 rest)) : Reads (g ++ ts) 1 (groupBytes g ++ rest) := by
  have hin := reads_in g (8 - g.length) ts rest (by
    rcases h with h | ⟨h, h'⟩
    · exact .inl h
    · exact .inr ⟨by omega, h'⟩)
  rw [show g.length + (8 - g.length) = 8 by omega] at hin
  have hlt : flagNum g < 256 := lt_of_lt_of_le (flagNum_lt g) (by
    have : 2 ^ g.length ≤ 2 ^ 8 := Nat.pow_le_pow_right (by norm_num) h8
    omega)
  have e : lzFlags 1 (groupBytes g ++ rest) = (flagNum g + 2 ^ 8, g.flatMap LzTok.bytes ++ rest) := by
    rw [lzFlags, if_pos rfl, groupBytes]
    simp only [List.cons_append, List.headD_cons, List.tail_cons, Prod.mk.injEq, and_true]
    rw [UInt8.toNat_ofNat', Nat.mod_eq_of_lt (b := 2 ^ 8) hlt]
    have := or_shift_eq (a := flagNum g) (n := 8) 1 hlt
    simpa using this
  cases g with
  | nil => exact absurd rfl hg
  | cons t g =>
    rw [List.cons_append, Reads] at hin ⊢
    rw [lzFlags_id _ (by omega)] at hin
    rw [e]
    exact hin

/-- The recorded tokens, and how the buffer holds them. -/
def LzBuf.Holds (b : LzBuf) (toks : List LzTok) : Prop :=
  ∃ (groups : List (List LzTok)) (part : List LzTok), toks = groups.flatten ++ part ∧ (∀ g ∈ groups, g.length = 8) ∧ part.length + b.left = 8 ∧ 1 ≤ b.left ∧
    b.closed = groups.flatMap groupBytes ∧ b.body = part.flatMap LzTok.bytes ∧ b.flags < 256 ∧ b.flags / 2 ^ b.left = flagNum part

theorem LzBuf.Holds.codes {b : LzBuf} {toks : List LzTok} (h : b.Holds toks) : Reads toks 1 b.codes := by
  obtain ⟨groups, part, h1, h2, h3, h4, h5, h6, h7, h8⟩ := h
  have hcodes : b.codes = groups.flatMap groupBytes ++ (if part = [] then [] else groupBytes part) := by
    unfold LzBuf.codes LzBuf.pos
    by_cases hp : part = []
    · subst hp
      have hb : b.body = [] := by rw [h6]; rfl
      simp only [List.length_nil, Nat.zero_add] at h3
      rw [hb, if_pos h3, h5, if_pos rfl]
      simp
    · have hl : b.left ≠ 8 := by
        have : part.length ≠ 0 := by simpa using hp
        omega
      rw [if_neg hl, if_neg hp, h5, h6, Nat.shiftRight_eq_div_pow, h8, groupBytes, Nat.sub_zero]
      apply List.take_of_length_le
      simp
      omega
  rw [hcodes, h1]
  clear hcodes h5 h1
  induction groups with
  | nil =>
    rw [List.flatten_nil, List.flatMap_nil, List.nil_append, List.nil_append]
    by_cases hp : part = []
    · subst hp; rfl
    · rw [if_neg hp]
      have := reads_group part hp (by omega) [] [] (.inl ⟨rfl, rfl⟩)
      simpa using this
  | cons g gs ih =>
    have hg := h2 g (by simp)
    rw [List.flatten_cons, List.flatMap_cons, List.append_assoc, List.append_assoc]
    exact reads_group g (by rintro rfl; simp at hg) (by omega) _ _ (.inr ⟨hg, ih (fun g hg => h2 g (by simp [hg]))⟩)

theorem LzBuf.holds_empty (j : Junk) : (LzBuf.empty j).Holds [] := by
  refine ⟨[], [], rfl, by simp, rfl, by simp [LzBuf.empty], rfl, rfl, ?_, ?_⟩
  · exact j.flags.toNat_lt
  · have := j.flags.toNat_lt
    simp only [LzBuf.empty, flagNum]
    omega

theorem flagNum_append (g : List LzTok) (t : LzTok) : flagNum (g ++ [t]) = flagNum g + 2 ^ g.length * t.flag := by
  induction g with
  | nil => simp [flagNum]
  | cons x g ih => rw [List.cons_append, flagNum, flagNum, ih, List.length_cons, pow_succ]; ring

/-- Recording a token. -/
theorem LzBuf.Holds.record {b : LzBuf} {toks : List LzTok} (h : b.Holds toks) (j : Junk) (t : LzTok)
    (hpos : b.pos + 4 ≤ LZ_CODE_BUF_SIZE) :
    ∃ b', b.record j t.bytes (t.flag = 1) = .ok b' ∧ b'.Holds (toks ++ [t]) ∧ b'.pos ≤ b.pos + t.bytes.length + 1 ∧
      b.pos + t.bytes.length ≤ b'.pos := by
  obtain ⟨groups, part, h1, h2, h3, h4, h5, h6, h7, h8⟩ := h
  have hlen : t.bytes.length ≤ 3 := by cases t <;> simp [LzTok.bytes]
  have hft := t.flag_lt
  -- the new flags
  have hflags : (b.flags >>> 1 ||| if t.flag = 1 then 0x80 else 0) = b.flags / 2 + 128 * t.flag := by
    rw [Nat.shiftRight_eq_div_pow, pow_one]
    by_cases hf : t.flag = 1
    · rw [if_pos hf, hf]
      have := or_shift_eq (a := b.flags / 2) (n := 7) 1 (by omega)
      simp only [mul_one] at this ⊢
      exact this
    · rw [if_neg hf, show t.flag = 0 by omega]
      simp
  have hf256 : b.flags / 2 + 128 * t.flag < 256 := by omega
  have hpow : 2 ^ (b.left - 1) * 2 ^ part.length = 128 := by
    rw [← pow_add, show b.left - 1 + part.length = 7 by omega]; norm_num
  have hnum : (b.flags / 2 + 128 * t.flag) / 2 ^ (b.left - 1) = flagNum (part ++ [t]) := by
    rw [flagNum_append, ← h8, ← hpow, mul_assoc, Nat.add_mul_div_left _ _ (by positivity), Nat.div_div_eq_div_mul,
      ← pow_succ', show b.left - 1 + 1 = b.left by omega]
  unfold LzBuf.record
  simp only [decide_eq_true_eq, hflags]
  by_cases hl : b.left - 1 = 0
  · have hl1 : b.left = 1 := by omega
    rw [if_pos hl]
    have hp : LzBuf.pos (⟨b.closed ++ UInt8.ofNat (b.flags / 2 + 128 * t.flag) :: (b.body ++ t.bytes), j.flags.toNat, [], 8⟩ : LzBuf) = b.pos + t.bytes.length + 1 := by
      simp only [LzBuf.pos, List.length_append, List.length_cons, List.length_nil]
      omega
    rw [if_pos (by rw [hp]; omega)]
    refine ⟨_, rfl, ⟨groups ++ [part ++ [t]], [], ?_, ?_, rfl, by simp, ?_, rfl, j.flags.toNat_lt, ?_⟩, by omega, by omega⟩
    · rw [h1]; simp
    · intro g hg
      rcases List.mem_append.1 hg with hg | hg
      · exact h2 g hg
      · rw [List.mem_singleton.1 hg, List.length_append, List.length_singleton]
        omega
    · simp only [List.flatMap_append, List.flatMap_cons, List.flatMap_nil, List.append_nil, groupBytes, h5, h6]
      rw [← hnum, hl1]
      simp
    · have := j.flags.toNat_lt
      simp only [flagNum]
      omega
  · rw [if_neg hl]
    have hp : LzBuf.pos (⟨b.closed, b.flags / 2 + 128 * t.flag, b.body ++ t.bytes, b.left - 1⟩ : LzBuf) =
        b.pos + t.bytes.length := by
      simp only [LzBuf.pos, List.length_append]
      omega
    rw [if_pos (by rw [hp]; omega)]
    refine ⟨_, rfl, ⟨groups, part ++ [t], ?_, h2, ?_, by simp only; omega, h5, ?_, hf256, hnum⟩, by omega, by omega⟩
    · rw [h1]; simp
    · simp only [List.length_append, List.length_singleton]; omega
    · simp [h6]

/-- The size of the buffer. -/
theorem LzBuf.Holds.pos_eq {b : LzBuf} {toks : List LzTok} (h : b.Holds toks) :
    8 * (toks.flatMap LzTok.bytes).length + toks.length ≤ 8 * b.pos ∧ toks.length ≤ (toks.flatMap LzTok.bytes).length ∧
      8 * b.pos ≤ 8 * (toks.flatMap LzTok.bytes).length + toks.length + 8 := by
  obtain ⟨groups, part, h1, h2, h3, h4, h5, h6, -, -⟩ := h
  have hge : ∀ l : List LzTok, l.length ≤ (l.flatMap LzTok.bytes).length := by
    intro l
    induction l with
    | nil => simp
    | cons t l ih =>
      rw [List.flatMap_cons, List.length_append, List.length_cons]
      have : 1 ≤ t.bytes.length := by cases t <;> simp [LzTok.bytes]
      omega
  have hgr : 8 * (groups.flatten.flatMap LzTok.bytes).length + groups.flatten.length = 8 * (groups.flatMap groupBytes).length := by
    clear h1 h5
    induction groups with
    | nil => simp
    | cons g gs ih =>
      have hg := h2 g (by simp)
      have := ih (fun g hg => h2 g (by simp [hg]))
      have := hge g
      simp only [List.flatten_cons, List.flatMap_cons, List.length_append, List.flatMap_append, groupBytes, List.length_cons] at *
      omega
  have hpt := hge part
  have hb : b.body.length = (part.flatMap LzTok.bytes).length := by rw [h6]
  have hc : b.closed.length = (groups.flatMap groupBytes).length := by rw [h5]
  refine ⟨?_, hge _, ?_⟩ <;> unfold LzBuf.pos <;> rw [h1, List.flatMap_append, List.length_append, List.length_append] <;> omega

/-! ### Writing the codes -/

/-- Codes that can be used in the output. -/
structure HuffCode.Out (t : HuffCode) : Prop where
  codes : t.Codes
  le : ∀ l ∈ t.sizes, l ≤ 15

theorem BitOut.Good64.sym {m : Nat} {w : BitOut} {v : List Bool} (h : w.Good64 m v) {t : HuffCode} (ht : t.Out)
    {s : Nat} (hs : lenOf t.sizes s ≠ 0) (hm : m + 15 ≤ 64) : (w.put64Sym t s).Good64 (m + 15) (v ++ huff t.sizes s) := by
  obtain ⟨h1, h2⟩ := ht.codes s hs
  have hle := lenOf_le ht.le s
  rw [← h2, BitOut.put64Sym, BitOut.require_true _ (by simpa [lenOf] using hs)]
  exact (h.put h1 (by omega)).mono (by omega)

theorem lzMatch_ok {lit dist : HuffCode} (hl : lit.Out) (hd : dist.Out) {l d : Nat} (hr : (LzTok.mat l d).Rng)
    (ho : (LzTok.mat l d).tok.Ok lit.sizes dist.sizes) {w : BitOut} {v : List Bool} (h : w.Good64 7 v) :
    (lzMatch lit dist l d w).Good64 64 (v ++ (LzTok.mat l d).tok.bits lit.sizes dist.sizes) := by
  obtain ⟨-, -, o1, -, -, o2, -⟩ := ho
  obtain ⟨-, -, h3, -, h5⟩ := lenTab_ok l hr.1
  obtain ⟨-, g2, -, g4⟩ := distTab_ok d hr.2
  have g1 := h.sym hl o1 (by omega)
  have g2' := g1.put (b := l % 2 ^ lenExtraTab.getD l 0) (l := lenExtraTab.getD l 0) (Nat.mod_lt _ (by positivity)) (by omega)
  have g3 := (g2'.mono (m' := 27) (by omega)).sym hd o2 (by omega)
  have g4' := g3.put (b := d % 2 ^ distExt d) (l := distExt d) (Nat.mod_lt _ (by positivity)) (by omega)
  have e : lzMatch lit dist l d w = (((w.put64Sym lit (lenSymTab.getD l 0)).put64 (l % 2 ^ lenExtraTab.getD l 0)
      (lenExtraTab.getD l 0)).put64Sym dist (distSym d)).put64 (d % 2 ^ distExt d) (distExt d) := by
    unfold lzMatch
    simp only [mask_eq]
    have e1 : (if d < 512 then smallDistSym.getD (d &&& 511) 0 else largeDistSym.getD (d >>> 8) 0) = distSym d := by
      unfold distSym
      split
      · rfl
      · have := hr.2
        rw [dl_and_127, Nat.mod_eq_of_lt (by rw [dl_shr_8]; omega)]
    rw [e1]
    rfl
  rw [e]
  have := g4'.mono (m' := 64) (by omega)
  simp only [LzTok.tok, Tok.bits]
  rw [← h3, ← g2]
  simpa only [List.append_assoc] using this

theorem lzLits_ok {lit dist : HuffCode} (hl : lit.Out) (k : Nat) (flags : Nat) (p : Bytes) (t : LzTok) (ts : List LzTok)
    (hf : flags % 2 = 0 ∧ t.flag = 0 ∧ ∃ p', p = t.bytes ++ p' ∧ Reads ts (flags >>> 1) p')
    (ho : ∀ t' ∈ t :: ts, t'.tok.Ok lit.sizes dist.sizes) {m : Nat} (hm : m + 15 * (k + 1) ≤ 64) {w : BitOut} {v : List Bool}
    (h : w.Good64 m v) :
    ∃ ts1 ts2 flags' p' w', t :: ts = ts1 ++ ts2 ∧ ts1 ≠ [] ∧ lzLits lit k flags p w = .ok (flags', p', w') ∧
      Reads ts2 (flags' >>> 1) p' ∧ p'.length < p.length ∧
      w'.Good64 64 (v ++ ts1.flatMap fun t => t.tok.bits lit.sizes dist.sizes) := by
  induction k generalizing flags p t ts m w v with
  | zero =>
    obtain ⟨f1, f2, p', rfl, f3⟩ := hf
    cases t with
    | mat l d => simp [LzTok.flag] at f2
    | lit c =>
      refine ⟨[.lit c], ts, flags, p', w.put64Sym lit c.toNat, rfl, by simp, rfl, f3, by simp [LzTok.bytes], ?_⟩
      have := (h.sym hl (ho (.lit c) (by simp)) (by omega)).mono (m' := 64) (by omega)
      simpa [LzTok.tok, Tok.bits] using this
  | succ k ih =>
    obtain ⟨f1, f2, p', rfl, f3⟩ := hf
    cases t with
    | mat l d => simp [LzTok.flag] at f2
    | lit c =>
      have hg := h.sym hl (ho (.lit c) (by simp)) (by omega)
      simp only [LzTok.bytes, List.cons_append, List.nil_append, lzLits]
      by_cases hc : flags &&& 2 = 0 ∧ p' ≠ []
      · rw [if_pos hc]
        have hne : flags >>> 1 ≠ 1 ∧ (flags >>> 1) % 2 = 0 := by
          have h2 : flags / 2 % 2 = 0 := by
            have h3 := hc.1
            have : (flags &&& 2).testBit 1 = false := by rw [h3]; simp
            rw [Nat.testBit_and] at this
            simp only [show (2 : Nat).testBit 1 = true by decide, Bool.and_true] at this
            rw [Nat.testBit_eq_decide_div_mod_eq] at this
            simp at this
            omega
          rw [Nat.shiftRight_eq_div_pow, pow_one]
          omega
        cases ts with
        | nil =>
          exact absurd (f3.nil_iff.2 rfl) hc.2
        | cons t' ts =>
          obtain ⟨r1, p2, r2, r3⟩ := f3
          rw [lzFlags_id _ hne.1] at r1 r2 r3
          simp only at r1 r2 r3
          obtain ⟨ts1, ts2, flags', p3, w', q1, q2, q3, q4, q5, q6⟩ := ih (flags >>> 1) p' t' ts ⟨hne.2, by omega, p2, r2, r3⟩
            (fun t ht => ho t (List.mem_cons_of_mem _ ht)) (m := m + 15) (by omega) hg
          refine ⟨.lit c :: ts1, ts2, flags', p3, w', by rw [q1]; rfl, by simp, q3, q4, by rw [List.length_cons]; omega, ?_⟩
          rw [List.flatMap_cons, ← List.append_assoc]
          exact q6
      · rw [if_neg hc]
        refine ⟨[.lit c], ts, flags, p', _, rfl, by simp, rfl, f3, by simp, ?_⟩
        have := hg.mono (m' := 64) (by omega)
        simpa [LzTok.tok, Tok.bits] using this

theorem lzRound_ok {lit dist : HuffCode} (hl : lit.Out) (hd : dist.Out) (flags : Nat) (p : Bytes) (t : LzTok) (ts : List LzTok)
    (hr : t.Rng) (hf : flags % 2 = t.flag ∧ ∃ p', p = t.bytes ++ p' ∧ Reads ts (flags >>> 1) p')
    (ho : ∀ t' ∈ t :: ts, t'.tok.Ok lit.sizes dist.sizes) {w : BitOut} {v : List Bool} (h : w.Good64 7 v) :
    ∃ ts1 ts2 flags' p' w', t :: ts = ts1 ++ ts2 ∧ ts1 ≠ [] ∧ lzRound false lit dist flags p w = .ok (flags', p', w') ∧
      Reads ts2 (flags' >>> 1) p' ∧ p'.length < p.length ∧
      w'.Good64 64 (v ++ ts1.flatMap fun t => t.tok.bits lit.sizes dist.sizes) := by
  unfold lzRound
  have hand : flags &&& 1 = flags % 2 := Nat.and_two_pow_sub_one_eq_mod _ 1
  rw [hand, hf.1]
  obtain ⟨f1, p', rfl, f3⟩ := hf
  cases t with
  | lit c =>
    rw [if_neg (by simp [LzTok.flag])]
    exact lzLits_ok hl 2 flags _ (.lit c) ts ⟨f1, rfl, p', rfl, f3⟩ ho (by omega) h
  | mat l d =>
    rw [if_pos (by simp [LzTok.flag])]
    refine ⟨[.mat l d], ts, flags, p', lzMatch lit dist l d w, rfl, by simp, ?_, f3, by simp [LzTok.bytes]; omega, ?_⟩
    · simp only [LzTok.bytes, List.cons_append, List.nil_append]
      have e1 : (UInt8.ofNat l).toNat = l := by rw [UInt8.toNat_ofNat']; exact Nat.mod_eq_of_lt hr.1
      have e2 : (UInt8.ofNat (d &&& 0xFF)).toNat + 256 * (UInt8.ofNat (d >>> 8)).toNat = d := by
        have := hr.2
        rw [UInt8.toNat_ofNat', UInt8.toNat_ofNat', dl_and_255, dl_shr_8]
        omega
      simp only [Bool.false_eq_true, if_false]
      rw [e1, e2, inArr_ok (by have := hr.2; rw [dl_shr_8]; omega)]
      rfl
    · have := lzMatch_ok hl hd hr (ho _ (by simp)) h
      simpa using this

theorem lzLoop_ok {lit dist : HuffCode} (hl : lit.Out) (hd : dist.Out) (f : Nat) (flags : Nat) (p : Bytes) (toks : List LzTok)
    (hr : ∀ t ∈ toks, t.Rng) (hreads : Reads toks flags p) (ho : ∀ t ∈ toks, t.tok.Ok lit.sizes dist.sizes)
    (hf : p.length < f) {w : BitOut} {v : List Bool} (h : w.Good v) :
    (lzLoop false dbg lit dist f flags p w = .ok none ∧
      8 * OUT_LIMIT ≤ (v ++ toks.flatMap fun t => t.tok.bits lit.sizes dist.sizes).length) ∨
    ∃ w', lzLoop false dbg lit dist f flags p w = .ok (some w') ∧ w'.Good (v ++ toks.flatMap fun t => t.tok.bits lit.sizes dist.sizes) := by
  induction f generalizing flags p toks w v with
  | zero => omega
  | succ f ih =>
    rw [lzLoop]
    cases toks with
    | nil =>
      rw [if_pos (hreads.nil_iff.2 rfl)]
      exact .inr ⟨w, rfl, by simpa using h⟩
    | cons t ts =>
      rw [if_neg (fun hp => by simpa using hreads.nil_iff.1 hp)]
      have hlt : (lzFlags flags p).2.length ≤ p.length := by
        unfold lzFlags
        split <;> simp
      obtain ⟨ts1, ts2, flags', p', w', q1, q2, q3, q4, q5, q6⟩ := lzRound_ok hl hd (lzFlags flags p).1 (lzFlags flags p).2 t ts
        (hr t (by simp)) hreads ho h.to64
      rw [q3, q1]
      simp only [List.flatMap_append]
      rw [← List.append_assoc, q6.check]
      simp only
      rw [BitOut.store64_pure]
      cases hs : w'.store64P with
      | none =>
        left
        refine ⟨rfl, ?_⟩
        have hfull : OUT_LIMIT ≤ w'.out.length := by
          unfold BitOut.store64P at hs
          split at hs
          · assumption
          · simp at hs
        rw [List.length_append]
        rcases q6.view with hv | hv
        · rw [← hv, BitOut.view_length]
          omega
        · omega
      | some w2 =>
        simp only
        exact ih (flags' >>> 1) p' ts2 (fun t ht => hr t (by rw [q1]; simp [ht])) q4 (fun t ht => ho t (by rw [q1]; simp [ht]))
          (by omega) (q6.store hs).1

/-- The rest of a block after its header: exact when it fits. -/
theorem compressLzCodes_ok {lit dist : HuffCode} (hl : lit.Out) (hd : dist.Out) {b : LzBuf} {toks : List LzTok}
    (hb : b.Holds toks) (hr : ∀ t ∈ toks, t.Rng) (ho : ∀ t ∈ toks, t.tok.Ok lit.sizes dist.sizes)
    (h256 : lenOf lit.sizes 256 ≠ 0) {w : BitOut} {v : List Bool} (h : w.Good v) :
    ∃ w' ok, compressLzCodes false dbg lit dist b.codes w = .ok (w', ok) ∧
      (ok = true → w'.Good (v ++ (toks.flatMap fun t => t.tok.bits lit.sizes dist.sizes) ++ huff lit.sizes 256) ∧
        w'.view = v ++ (toks.flatMap fun t => t.tok.bits lit.sizes dist.sizes) ++ huff lit.sizes 256 ∧
        w'.out.length < OUT_LIMIT) ∧
      ((v ++ (toks.flatMap fun t => t.tok.bits lit.sizes dist.sizes) ++ huff lit.sizes 256).length < 8 * OUT_LIMIT → ok = true) := by
  unfold compressLzCodes
  rcases lzLoop_ok hl hd (b.codes.length + 1) 1 b.codes toks hr hb.codes ho (by omega) h with ⟨e, hlen⟩ | ⟨w', e, hg⟩
  · rw [e]
    refine ⟨w, false, rfl, by simp, fun hc => ?_⟩
    rw [List.length_append] at hc
    omega
  · rw [e]
    simp only
    generalize (toks.flatMap fun t => t.tok.bits lit.sizes dist.sizes) = body at *
    -- the buffer without its bits
    have hg0 : BitOut.Good { w' with buf := 0, n := 0 } (Spec.bits w'.out) :=
      ⟨by simp, by simp, hg.fine, .inl (by simp [BitOut.view, lsb])⟩
    have hg1 := putRest_good 4 w'.buf w'.n _ _ hg0 hg.buf (by have := hg.n; omega)
    have hg2 := hg1.sym hl.codes hl.le h256
    rw [hg2.check]
    refine ⟨_, _, rfl, fun hok => ?_, fun hc => ?_⟩
    · simp only [decide_eq_true_eq] at hok
      have hv := hg2.exact hok
      have hlen : w'.out.length < OUT_LIMIT := by
        have := congrArg List.length hv
        rw [BitOut.view_length] at this
        simp only [List.length_append, bits_length, lsb_length] at this
        have := hg2.n
        omega
      have hvw := hg.exact hlen
      rw [BitOut.view] at hvw
      rw [hvw] at hg2 hv
      exact ⟨hg2, hv, hok⟩
    · simp only [decide_eq_true_eq]
      have hvw : w'.view = v ++ body := hg.fits (by rw [List.length_append] at hc; omega)
      rw [BitOut.view] at hvw
      rw [hvw] at hg2
      have hv := hg2.fits hc
      rw [← hv, BitOut.view_length] at hc
      omega

end Npy
