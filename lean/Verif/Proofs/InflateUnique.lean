import Verif.Proofs.InflateSound
/-!
# Bytes stand for one output at most, and data that stand for an output have no fault

Everything here is about the grammar of `Spec/Deflate` and `Spec/DeflateFault`; the model of the code does not occur.
-/

set_option maxRecDepth 4000

namespace Npy
open Spec.Deflate

theorem lsb_app {n v v' : Nat} (h : v < 2 ^ n) (h' : v' < 2 ^ n) {r r' : List Bool} (he : lsb n v ++ r = lsb n v' ++ r') :
    v = v' ∧ r = r' := by
  obtain ⟨e1, e2⟩ := List.append_inj he (by rw [lsb_length, lsb_length])
  exact ⟨lsb_inj h h' e1, e2⟩

theorem huff_app {lens : List Nat} (hU : Usable lens) {s t : Nat} (hs : lenOf lens s ≠ 0) (ht : lenOf lens t ≠ 0)
    {r r' : List Bool} (he : huff lens s ++ r = huff lens t ++ r') : s = t ∧ r = r' := by
  have h := huff_unique hU.1 (usable_kraft hU) hs ht (x := huff lens s ++ r) ⟨r, rfl⟩ ⟨r', he.symm⟩
  subst h
  exact ⟨rfl, List.append_cancel_left he⟩

theorem noCode_app {lens : List Nat} {s : Nat} (hs : lenOf lens s ≠ 0) {r : List Bool} (h : NoCode lens (huff lens s ++ r)) :
    False := (h s hs).1 ⟨r, rfl⟩

/-! ### Literals and matches -/

section
variable {lit dist : List Nat} (hl : Usable lit) (hd : Usable dist)
include hl hd

theorem tok_app {t t' : Tok} (h : t.Ok lit dist) (h' : t'.Ok lit dist) {r r' : List Bool}
    (he : t.bits lit dist ++ r = t'.bits lit dist ++ r') : t = t' ∧ r = r' := by
  cases t with
  | lit b =>
    cases t' with
    | lit b' =>
      obtain ⟨e1, e2⟩ := huff_app hl (s := b.toNat) (t := b'.toNat) h h' he
      exact ⟨by rw [UInt8.toNat_inj.mp e1], e2⟩
    | copy ls le ds de =>
      simp only [Tok.bits, List.append_assoc] at he
      obtain ⟨e1, -⟩ := huff_app hl (s := b.toNat) h h'.2.2.1 he
      have := b.toNat_lt; have := h'.1; omega
  | copy ls le ds de =>
    cases t' with
    | lit b' =>
      simp only [Tok.bits, List.append_assoc] at he
      obtain ⟨e1, -⟩ := huff_app hl (t := b'.toNat) h.2.2.1 h' he
      have := b'.toNat_lt; have := h.1; omega
    | copy ls' le' ds' de' =>
      simp only [Tok.bits, List.append_assoc] at he
      obtain ⟨rfl, he1⟩ := huff_app hl h.2.2.1 h'.2.2.1 he
      obtain ⟨rfl, he2⟩ := lsb_app h.2.2.2.1 h'.2.2.2.1 he1
      obtain ⟨rfl, he3⟩ := huff_app hd h.2.2.2.2.2.1 h'.2.2.2.2.2.1 he2
      obtain ⟨rfl, he4⟩ := lsb_app h.2.2.2.2.2.2 h'.2.2.2.2.2.2 he3
      exact ⟨rfl, he4⟩

omit hd in
theorem tok_end {t : Tok} (h : t.Ok lit dist) (h256 : lenOf lit 256 ≠ 0) {r r' : List Bool}
    (he : t.bits lit dist ++ r = huff lit 256 ++ r') : False := by
  cases t with
  | lit b =>
    obtain ⟨e1, -⟩ := huff_app hl (s := b.toNat) h h256 he
    have := b.toNat_lt; omega
  | copy ls le ds de =>
    simp only [Tok.bits, List.append_assoc] at he
    obtain ⟨e1, -⟩ := huff_app hl h.2.2.1 h256 he
    have := h.1; omega

omit hd in
/-- A fault is not the end of the block. -/
theorem fault_end {out : List UInt8} {more r : List Bool} (h256 : lenOf lit 256 ≠ 0) (hf : FaultAt lit dist out more)
    (he : more = huff lit 256 ++ r) : False := by
  cases hf with
  | noSymbol _ none => subst he; exact noCode_app h256 none
  | badLength ls more has bad => have := (huff_app hl has h256 he).1; omega
  | noDistance ls le more has h1 h2 h3 none =>
    rw [List.append_assoc] at he; have := (huff_app hl has h256 he).1; omega
  | badDistance ls le ds more has h1 h2 h3 hasd bad =>
    simp only [List.append_assoc] at he; have := (huff_app hl has h256 he).1; omega
  | tooFar t more ok bad => exact tok_end hl ok h256 he

/-- A fault is not a literal or a match. -/
theorem fault_tok {out : List UInt8} {more r : List Bool} {t : Tok} (ht : t.Ok lit dist) (hexp : t.expand out ≠ none)
    (hf : FaultAt lit dist out more) (he : more = t.bits lit dist ++ r) : False := by
  cases hf with
  | noSymbol _ none =>
    subst he
    cases t with
    | lit b => exact noCode_app (s := b.toNat) ht none
    | copy ls le ds de =>
      simp only [Tok.bits, List.append_assoc] at none
      exact noCode_app ht.2.2.1 none
  | badLength ls more has bad =>
    cases t with
    | lit b =>
      have := (huff_app hl (t := b.toNat) has ht he).1
      have := b.toNat_lt; omega
    | copy ls' le ds de =>
      simp only [Tok.bits, List.append_assoc] at he
      have := (huff_app hl has ht.2.2.1 he).1
      have := ht.2.1; omega
  | noDistance ls le more has h1 h2 h3 none =>
    cases t with
    | lit b =>
      rw [List.append_assoc] at he
      have := (huff_app hl (t := b.toNat) has ht he).1
      have := b.toNat_lt; omega
    | copy ls' le' ds de =>
      simp only [Tok.bits, List.append_assoc] at he
      obtain ⟨rfl, he1⟩ := huff_app hl has ht.2.2.1 he
      obtain ⟨rfl, he2⟩ := lsb_app h3 ht.2.2.2.1 he1
      subst he2
      exact noCode_app ht.2.2.2.2.2.1 none
  | badDistance ls le ds more has h1 h2 h3 hasd bad =>
    cases t with
    | lit b =>
      simp only [List.append_assoc] at he
      have := (huff_app hl (t := b.toNat) has ht he).1
      have := b.toNat_lt; omega
    | copy ls' le' ds' de =>
      simp only [Tok.bits, List.append_assoc] at he
      obtain ⟨rfl, he3⟩ := huff_app hl has ht.2.2.1 he
      obtain ⟨rfl, he4⟩ := lsb_app h3 ht.2.2.2.1 he3
      have := (huff_app hd hasd ht.2.2.2.2.2.1 he4).1
      have := ht.2.2.2.2.1; omega
  | tooFar t' more ok bad =>
    obtain ⟨rfl, -⟩ := tok_app hl hd ok ht he
    exact hexp bad

theorem toks_app {r r' : List Bool} (h256 : lenOf lit 256 ≠ 0) (ts : List Tok) : ∀ (ts' : List Tok),
    (∀ t ∈ ts, t.Ok lit dist) → (∀ t ∈ ts', t.Ok lit dist) →
    ts.flatMap (Tok.bits lit dist) ++ huff lit 256 ++ r = ts'.flatMap (Tok.bits lit dist) ++ huff lit 256 ++ r' →
    ts = ts' ∧ r = r' := by
  induction ts with
  | nil =>
    intro ts' _ h' he
    cases ts' with
    | nil => exact ⟨rfl, List.append_cancel_left (as := huff lit 256) (by simpa only [List.flatMap_nil, List.nil_append] using he)⟩
    | cons t' ts' =>
      simp only [List.flatMap_cons, List.flatMap_nil, List.nil_append, List.append_assoc] at he
      exact (tok_end hl (h' t' (by simp)) h256 he.symm).elim
  | cons t ts ih =>
    intro ts' h h' he
    cases ts' with
    | nil =>
      simp only [List.flatMap_cons, List.flatMap_nil, List.nil_append, List.append_assoc] at he
      exact (tok_end hl (h t (by simp)) h256 he).elim
    | cons t' ts' =>
      simp only [List.flatMap_cons, List.append_assoc] at he
      obtain ⟨rfl, he1⟩ := tok_app hl hd (h t (by simp)) (h' t' (by simp)) he
      obtain ⟨rfl, he2⟩ := ih ts' (fun x hx => h x (by simp [hx])) (fun x hx => h' x (by simp [hx]))
        (by simpa only [List.append_assoc] using he1)
      exact ⟨rfl, he2⟩

theorem toks_fault {r more : List Bool} (h256 : lenOf lit 256 ≠ 0) (ts : List Tok) : ∀ (ts' : List Tok) (out res out' : List UInt8),
    (∀ t ∈ ts, t.Ok lit dist) → (∀ t ∈ ts', t.Ok lit dist) → expandToks out ts = some res → expandToks out ts' = some out' →
    FaultAt lit dist out' more →
    ts.flatMap (Tok.bits lit dist) ++ huff lit 256 ++ r = ts'.flatMap (Tok.bits lit dist) ++ more → False := by
  induction ts with
  | nil =>
    intro ts' out res out' _ h' _ e2 hf he
    cases ts' with
    | nil =>
      simp only [List.flatMap_nil, List.nil_append] at he
      exact fault_end hl h256 hf he.symm
    | cons t' ts' =>
      simp only [List.flatMap_cons, List.flatMap_nil, List.nil_append, List.append_assoc] at he
      exact tok_end hl (h' t' (by simp)) h256 he.symm
  | cons t ts ih =>
    intro ts' out res out' h h' e1 e2 hf he
    obtain ⟨o, f1, f2⟩ := expandToks_cons e1
    cases ts' with
    | nil =>
      simp only [List.flatMap_cons, List.flatMap_nil, List.nil_append, List.append_assoc] at he
      simp only [expandToks, Option.some.injEq] at e2
      subst e2
      exact fault_tok hl hd (h t (by simp)) (by rw [f1]; simp) hf he.symm
    | cons t' ts' =>
      simp only [List.flatMap_cons, List.append_assoc] at he
      obtain ⟨rfl, he1⟩ := tok_app hl hd (h t (by simp)) (h' t' (by simp)) he
      obtain ⟨o', g1, g2⟩ := expandToks_cons e2
      rw [f1] at g1
      obtain rfl := Option.some.inj g1
      exact ih ts' o res out' (fun x hx => h x (by simp [hx])) (fun x hx => h' x (by simp [hx])) f2 g2 hf
        (by simpa only [List.append_assoc] using he1)

end

/-! ### Code lengths -/

theorem op_app {cl : List Nat} (hU : Usable cl) {o o' : ClOp} (h : o.Ok cl) (h' : o'.Ok cl) {r r' : List Bool}
    (he : o.bits cl ++ r = o'.bits cl ++ r') : o = o' ∧ r = r' := by
  simp only [ClOp.bits, List.append_assoc] at he
  obtain ⟨e1, he1⟩ := huff_app hU h.1 h'.1 he
  have hb := h.2
  have hb' := h'.2
  cases o <;> cases o' <;> simp only [ClOp.sym] at e1 hb hb' <;> first | omega | skip
  · subst e1; exact ⟨rfl, by simpa using he1⟩
  · obtain ⟨rfl, he2⟩ := lsb_app (n := 2) hb hb' he1; exact ⟨rfl, he2⟩
  · obtain ⟨rfl, he3⟩ := lsb_app (n := 3) hb hb' he1; exact ⟨rfl, he3⟩
  · obtain ⟨rfl, he4⟩ := lsb_app (n := 7) hb hb' he1; exact ⟨rfl, he4⟩

theorem expandCl_longer (ops : List ClOp) : ∀ {acc res : List Nat}, expandCl acc ops = some res →
    acc.length + ops.length ≤ res.length := by
  induction ops with
  | nil => intro acc res h; simp only [expandCl, Option.some.injEq] at h; subst h; simp
  | cons o os ih =>
    intro acc res h
    cases o with
    | len l => rw [expandCl] at h; have := ih h; simp at this ⊢; omega
    | rep e =>
      rw [expandCl] at h
      cases hl : acc.getLast? with
      | none => rw [hl] at h; simp at h
      | some l => rw [hl] at h; have := ih h; simp at this ⊢; omega
    | zeros e => rw [expandCl] at h; have := ih h; simp at this ⊢; omega
    | manyZeros e => rw [expandCl] at h; have := ih h; simp at this ⊢; omega

theorem expandCl_app (a b : List ClOp) : ∀ (acc : List Nat),
    expandCl acc (a ++ b) = (expandCl acc a).bind fun acc' => expandCl acc' b := by
  induction a with
  | nil => intro acc; rfl
  | cons o os ih =>
    intro acc
    cases o with
    | len l => rw [List.cons_append, expandCl, expandCl, ih]
    | rep e =>
      rw [List.cons_append, expandCl, expandCl]
      cases acc.getLast? with
      | none => rfl
      | some l => exact ih _
    | zeros e => rw [List.cons_append, expandCl, expandCl, ih]
    | manyZeros e => rw [List.cons_append, expandCl, expandCl, ih]

/-- One sequence of code length symbols is the beginning of the other. -/
theorem ops_app {cl : List Nat} (hU : Usable cl) {r r' : List Bool} (ops : List ClOp) : ∀ (ops' : List ClOp),
    (∀ o ∈ ops, o.Ok cl) → (∀ o ∈ ops', o.Ok cl) →
    ops.flatMap (ClOp.bits cl) ++ r = ops'.flatMap (ClOp.bits cl) ++ r' →
    (∃ x, ops' = ops ++ x ∧ r = x.flatMap (ClOp.bits cl) ++ r') ∨ (∃ x, x ≠ [] ∧ ops = ops' ++ x) := by
  induction ops with
  | nil => intro ops' _ _ he; exact Or.inl ⟨ops', rfl, by simpa using he⟩
  | cons o os ih =>
    intro ops' h h' he
    cases ops' with
    | nil => exact Or.inr ⟨o :: os, by simp, rfl⟩
    | cons o' os' =>
      simp only [List.flatMap_cons, List.append_assoc] at he
      obtain ⟨rfl, he1⟩ := op_app hU (h o (by simp)) (h' o' (by simp)) he
      rcases ih os' (fun x hx => h x (by simp [hx])) (fun x hx => h' x (by simp [hx])) he1 with ⟨x, e1, e2⟩ | ⟨x, e1, e2⟩
      · exact Or.inl ⟨x, by rw [e1]; rfl, e2⟩
      · exact Or.inr ⟨x, e1, by rw [e2]; rfl⟩

theorem ops_same {cl : List Nat} (hU : Usable cl) {r r' : List Bool} {ops ops' : List ClOp} (h : ∀ o ∈ ops, o.Ok cl)
    (h' : ∀ o ∈ ops', o.Ok cl) {res res' : List Nat} (e1 : expandCl [] ops = some res) (e2 : expandCl [] ops' = some res')
    (hlen : res.length = res'.length) (he : ops.flatMap (ClOp.bits cl) ++ r = ops'.flatMap (ClOp.bits cl) ++ r') :
    ops = ops' ∧ res = res' ∧ r = r' := by
  rcases ops_app hU ops ops' h h' he with ⟨x, f1, f2⟩ | ⟨x, f1, f2⟩
  · subst f1
    rw [expandCl_app, e1, Option.bind_some] at e2
    have := expandCl_longer _ e2
    have hx : x = [] := List.length_eq_zero_iff.mp (by omega)
    subst hx
    simp only [expandCl, Option.some.injEq] at e2
    exact ⟨by simp, e2, by simpa using f2⟩
  · subst f2
    rw [expandCl_app, e2, Option.bind_some] at e1
    have := expandCl_longer _ e1
    have := List.length_pos_iff.mpr f1
    omega

/-! ### The header of a dynamic block -/

theorem head_lens {cl cl' : List Nat} {r r' : List Bool} (h7 : ∀ l ∈ cl, l ≤ 7) (h7' : ∀ l ∈ cl', l ≤ 7) (is : List Nat)
    (he : is.flatMap (fun s => lsb 3 (lenOf cl s)) ++ r = is.flatMap (fun s => lsb 3 (lenOf cl' s)) ++ r') :
    (∀ s ∈ is, lenOf cl s = lenOf cl' s) ∧ r = r' := by
  have hb : ∀ (c : List Nat), (∀ l ∈ c, l ≤ 7) → ∀ s, lenOf c s < 2 ^ 3 := by
    intro c hc s
    unfold lenOf
    rw [List.getD_eq_getElem?_getD]
    cases h : c[s]? with
    | none => simp
    | some v => have := hc v (List.mem_of_getElem? h); simp; omega
  induction is with
  | nil => exact ⟨by simp, by simpa using he⟩
  | cons s is ih =>
    simp only [List.flatMap_cons, List.append_assoc] at he
    obtain ⟨e1, he1⟩ := lsb_app (hb _ h7 s) (hb _ h7' s) he
    obtain ⟨e2, he2⟩ := ih he1
    exact ⟨by simp [e1]; exact e2, he2⟩

theorem clOrder_all {s : Nat} (h : s < 19) : s ∈ clOrder := by
  have : ∀ s < 19, s ∈ clOrder := by decide
  exact this s h

theorem head_app {d d' : DynHead} (h : d.Fits) (h' : d'.Fits) {r r' : List Bool} (he : d.bits ++ r = d'.bits ++ r') :
    d = d' ∧ r = r' := by
  obtain ⟨a1, a2, a3, a4, a5, a6, a7, a8, a9⟩ := h
  obtain ⟨b1, b2, b3, b4, b5, b6, b7, b8, b9⟩ := h'
  obtain ⟨nlit, ndist, cl, hclen⟩ := d
  obtain ⟨nlit', ndist', cl', hclen'⟩ := d'
  dsimp only at *
  simp only [DynHead.bits, List.append_assoc] at he
  obtain ⟨e1, he1⟩ := lsb_app (by omega) (by omega) he
  obtain ⟨e2, he2⟩ := lsb_app (by omega) (by omega) he1
  obtain ⟨e3, he3⟩ := lsb_app (by omega) (by omega) he2
  obtain rfl : nlit = nlit' := by omega
  obtain rfl : ndist = ndist' := by omega
  obtain rfl : hclen = hclen' := by omega
  obtain ⟨e4, he4⟩ := head_lens a6 b6 _ he3
  have : cl = cl' := by
    apply List.ext_getElem (by omega)
    intro s h1 h2
    rw [← lenOf_eq h1, ← lenOf_eq h2]
    have hmem := clOrder_all (s := s) (by omega)
    rw [← List.take_append_drop hclen clOrder, List.mem_append] at hmem
    rcases hmem with hm | hm
    · exact e4 s hm
    · rw [a9 s hm, b9 s hm]
  subst this
  exact ⟨rfl, he4⟩

/-- The header of a legal dynamic block. -/
def Spec.Deflate.Dyn.head (d : Dyn) : DynHead := ⟨d.lit.length, d.dist.length, d.cl, d.hclen⟩

theorem Spec.Deflate.Dyn.Ok.fits {d : Dyn} (h : d.Ok) : d.head.Fits := by
  obtain ⟨h1, h2, h3, h4, h5, h6, h7, h8, h9, h10, h11, h12, h13, h14, h15⟩ := h
  exact ⟨h9, by show d.lit.length < _; omega, h11, by show d.dist.length < _; omega, h1, h2, h4, h5, h6⟩

theorem Dyn.bits_eq (d : Dyn) : d.bits = d.head.bits ++ d.ops.flatMap (ClOp.bits d.cl) := rfl

theorem append_split {a b c d : List Nat} (h : a ++ b = c ++ d) (hl : a.length = c.length) : a = c ∧ b = d :=
  List.append_inj h hl

/-- Two ways to read the code lengths of a block are the same. -/
theorem dyn_app {d : Dyn} (h : d.Ok) {d' : DynHead} (hf : d'.Fits) {ops : List ClOp} {lit dist : List Nat}
    (hops : ∀ o ∈ ops, o.Ok d'.cl) (hexp : expandCl [] ops = some (lit ++ dist)) (hlit : lit.length = d'.nlit)
    (hdist : dist.length = d'.ndist) {r r' : List Bool}
    (he : d.bits ++ r = d'.bits ++ ops.flatMap (ClOp.bits d'.cl) ++ r') :
    d' = d.head ∧ ops = d.ops ∧ lit = d.lit ∧ dist = d.dist ∧ r = r' := by
  rw [Dyn.bits_eq, List.append_assoc, List.append_assoc] at he
  obtain ⟨e1, he1⟩ := head_app (Dyn.Ok.fits h) hf he
  subst e1
  obtain ⟨h1, h2, h3, h4, h5, h6, h7, h8, h9, h10, h11, h12, h13, h14, h15⟩ := h
  have hl1 : lit.length = d.lit.length := hlit
  have hl2 : dist.length = d.dist.length := hdist
  obtain ⟨e1, e2, e3⟩ := ops_same (show Usable d.head.cl from h3) h7 hops h8 hexp (by simp [hl1, hl2]) he1
  obtain ⟨e4, e5⟩ := append_split e2 hl1.symm
  exact ⟨rfl, e1.symm, e4.symm, e5.symm, e3⟩

/-! ### Blocks -/

theorem fixed_usable : Usable fixedLit ∧ Usable fixedDist ∧ lenOf fixedLit 256 ≠ 0 := by
  unfold Usable Complete
  decide +kernel

/-- Which of the three kinds a block is. -/
def Spec.Deflate.Block.type : Block → Nat
  | .stored _ _ => 0
  | .fixed _ => 1
  | .dynamic _ _ => 2

theorem Block.bits_head (b : Block) (f : Bool) : ∃ r, b.bits f = f :: lsb 2 b.type ++ r ∧ ∀ f', b.bits f' = f' :: lsb 2 b.type ++ r := by
  cases b <;> simp only [Block.bits, List.append_assoc, List.cons_append] <;> exact ⟨_, rfl, fun _ => rfl⟩

theorem type_lt (b : Block) : b.type < 2 ^ 2 := by cases b <;> simp [Block.type]

theorem kind_app {f f' : Bool} {k k' : Nat} (h : k < 2 ^ 2) (h' : k' < 2 ^ 2) {r r' : List Bool}
    (he : f :: lsb 2 k ++ r = f' :: lsb 2 k' ++ r') : f = f' ∧ k = k' ∧ r = r' := by
  rw [List.cons_append, List.cons_append] at he
  obtain ⟨e1, e2⟩ := List.cons.inj he
  exact ⟨e1, lsb_app h h' e2⟩

theorem bits_inj : ∀ {a b : Bytes}, Spec.bits a = Spec.bits b → a = b := by
  intro a
  induction a with
  | nil =>
    intro b h
    have := congrArg List.length h
    rw [bits_length, bits_length] at this
    exact (List.length_eq_zero_iff.mp (by rw [List.length_nil] at this; omega)).symm
  | cons x xs ih =>
    intro b h
    cases b with
    | nil => have := congrArg List.length h; rw [bits_length, bits_length] at this; simp at this
    | cons y ys =>
      rw [bits_cons, bits_cons, byteBits_eq, byteBits_eq] at h
      obtain ⟨e1, e2⟩ := lsb_app x.toNat_lt y.toNat_lt h
      rw [UInt8.toNat_inj.mp e1, ih e2]

theorem block_app {pos : Nat} {b b' : Block} (h : b.Ok pos) (h' : b'.Ok pos) {f f' : Bool} {r r' : List Bool}
    (he : b.bits f ++ r = b'.bits f' ++ r') : f = f' ∧ b = b' ∧ r = r' := by
  obtain ⟨x, hx, -⟩ := Block.bits_head b f
  obtain ⟨x', hx', -⟩ := Block.bits_head b' f'
  have hh := he
  rw [hx, hx', List.append_assoc, List.append_assoc] at hh
  obtain ⟨rfl, hk, -⟩ := kind_app (type_lt b) (type_lt b') hh
  refine ⟨rfl, ?_⟩
  cases b with
  | stored pad data =>
    cases b' with
    | stored pad' data' =>
      obtain ⟨a1, a2, a3⟩ := h
      obtain ⟨b1, b2, b3⟩ := h'
      simp only [Block.bits, List.append_assoc] at he
      obtain ⟨-, -, he1⟩ := kind_app (by omega) (by omega) he
      obtain ⟨rfl, he2⟩ := List.append_inj he1 (by omega)
      obtain ⟨e1, he3⟩ := lsb_app a3 b3 he2
      obtain ⟨e2, he4⟩ := List.append_inj he3 (by rw [lsb_length, lsb_length])
      obtain ⟨e3, he5⟩ := List.append_inj he4 (by rw [bits_length, bits_length, e1])
      obtain rfl := bits_inj e3
      exact ⟨rfl, he5⟩
    | fixed => simp [Block.type] at hk
    | dynamic => simp [Block.type] at hk
  | fixed toks =>
    cases b' with
    | stored => simp [Block.type] at hk
    | fixed toks' =>
      simp only [Block.bits, List.append_assoc] at he
      obtain ⟨-, -, he6⟩ := kind_app (by omega) (by omega) he
      obtain ⟨rfl, he7⟩ := toks_app fixed_usable.1 fixed_usable.2.1 fixed_usable.2.2 toks toks' h h'
        (by simpa only [List.append_assoc] using he6)
      exact ⟨rfl, he7⟩
    | dynamic => simp [Block.type] at hk
  | dynamic d toks =>
    cases b' with
    | stored => simp [Block.type] at hk
    | fixed => simp [Block.type] at hk
    | dynamic d' toks' =>
      simp only [Block.bits, List.append_assoc] at he
      obtain ⟨-, -, he8⟩ := kind_app (by omega) (by omega) he
      rw [Dyn.bits_eq d'] at he8
      obtain ⟨g1, g2, g3, g4, g5⟩ := dyn_app h.1 (Dyn.Ok.fits h'.1) h'.1.2.2.2.2.2.2.1 h'.1.2.2.2.2.2.2.2.1 rfl rfl he8
      have hd : d' = d := by
        obtain ⟨c1, c2, c3, c4, c5⟩ := d
        obtain ⟨c1', c2', c3', c4', c5'⟩ := d'
        simp only [Dyn.head, DynHead.mk.injEq] at g1
        simp only at g2 g3 g4
        simp [g1, g2, g3, g4]
      subst hd
      obtain ⟨rfl, he9⟩ := toks_app h.1.2.2.2.2.2.2.2.2.2.2.2.2.1 h.1.2.2.2.2.2.2.2.2.2.2.2.2.2.1 h.1.2.2.2.2.2.2.2.2.2.2.2.2.2.2
        toks toks' h.2 h'.2 (by simpa only [List.append_assoc] using g5)
      exact ⟨rfl, he9⟩

/-- A block with a fault is not a legal block. -/
theorem block_fault {pos : Nat} {b : Block} (h : b.Ok pos) {out res : List UInt8} (hexp : b.expand out = some res) {f : Bool}
    {r bad : List Bool} (hbad : FaultyBlock out bad) (he : b.bits f ++ r = bad) : False := by
  obtain ⟨x, hx, -⟩ := Block.bits_head b f
  cases hbad with
  | fixed final toks out' more ok exp bad =>
    have hh := he
    rw [hx, List.append_assoc, List.append_assoc] at hh
    obtain ⟨-, hk, -⟩ := kind_app (type_lt b) (by omega) hh
    cases b with
    | stored => simp [Block.type] at hk
    | dynamic => simp [Block.type] at hk
    | fixed ts =>
      simp only [Block.bits, List.append_assoc] at he
      obtain ⟨-, -, he1⟩ := kind_app (by omega) (by omega) he
      exact toks_fault fixed_usable.1 fixed_usable.2.1 fixed_usable.2.2 ts toks out res out' h ok hexp exp bad
        (by simpa only [List.append_assoc] using he1)
  | dynamic final d ops lit dist toks out' more fits ok ops_ok lens hlit hdist ulit udist toks_ok exp bad =>
    have hh := he
    rw [hx] at hh
    simp only [List.append_assoc] at hh
    obtain ⟨-, hk, -⟩ := kind_app (type_lt b) (by omega) hh
    cases b with
    | stored => simp [Block.type] at hk
    | fixed => simp [Block.type] at hk
    | dynamic d' ts =>
      simp only [Block.bits, List.append_assoc] at he
      obtain ⟨-, -, he2⟩ := kind_app (by omega) (by omega) he
      obtain ⟨g1, g2, rfl, rfl, g5⟩ := dyn_app h.1 fits ops_ok lens hlit hdist
        (r' := toks.flatMap (Tok.bits lit dist) ++ more) (by simpa only [List.append_assoc] using he2)
      exact toks_fault ulit udist h.1.2.2.2.2.2.2.2.2.2.2.2.2.2.2 ts toks out res out' h.2 toks_ok hexp exp bad
        (by simpa only [List.append_assoc] using g5)
  | noLength final d ops lens more fits ok ops_ok exp few none =>
    have hh := he
    rw [hx] at hh
    simp only [List.append_assoc] at hh
    obtain ⟨-, hk, -⟩ := kind_app (type_lt b) (by omega) hh
    cases b with
    | stored => simp [Block.type] at hk
    | fixed => simp [Block.type] at hk
    | dynamic d' ts =>
      simp only [Block.bits, List.append_assoc] at he
      obtain ⟨-, -, he3⟩ := kind_app (by omega) (by omega) he
      rw [Dyn.bits_eq, List.append_assoc] at he3
      obtain ⟨e1, he4⟩ := head_app (Dyn.Ok.fits h.1) fits he3
      subst e1
      obtain ⟨h1, h2, h3, h4, h5, h6, h7, h8, h9, h10, h11, h12, h13, h14, h15⟩ := h.1
      have few' : lens.length < d'.lit.length + d'.dist.length := few
      rcases ops_app h3 d'.ops ops h7 ops_ok he4 with ⟨y, f1, -⟩ | ⟨y, f1, f2⟩
      · rw [f1, expandCl_app, h8, Option.bind_some] at exp
        have := expandCl_longer _ exp
        rw [List.length_append] at this
        omega
      · rw [f2, List.flatMap_append, List.append_assoc] at he4
        have he5 := List.append_cancel_left he4
        obtain ⟨o, os, rfl⟩ := List.exists_cons_of_ne_nil f1
        rw [← he5] at none
        simp only [List.flatMap_cons, ClOp.bits, List.append_assoc] at none
        exact noCode_app (h7 o (by rw [f2]; simp)).1 none
  | tooManyCodes final d more fits bad =>
    have hh := he
    rw [hx] at hh
    simp only [List.append_assoc] at hh
    obtain ⟨-, hk, -⟩ := kind_app (type_lt b) (by omega) hh
    cases b with
    | stored => simp [Block.type] at hk
    | fixed => simp [Block.type] at hk
    | dynamic d' ts =>
      simp only [Block.bits, List.append_assoc] at he
      obtain ⟨-, -, he5⟩ := kind_app (by omega) (by omega) he
      rw [Dyn.bits_eq, List.append_assoc] at he5
      obtain ⟨e1, he6⟩ := head_app (Dyn.Ok.fits h.1) fits he5
      subst e1
      have := h.1.2.2.2.2.2.2.2.2.2.1
      have : 286 < d'.lit.length := bad
      omega

/-! ### Streams -/

theorem block_len (b : Block) (f : Bool) : (b.bits f).length = (b.bits false).length := by
  obtain ⟨x, hx, hx'⟩ := Block.bits_head b f
  rw [hx, hx' false]; rfl

theorem streamBits_cons (b : Block) (bs : List Block) :
    streamBits (b :: bs) = b.bits bs.isEmpty ++ streamBits bs := by
  cases bs with
  | nil => simp [streamBits]
  | cons => rfl

theorem stream_app {r r' : List Bool} (bs : List Block) : ∀ (bs' : List Block) (pos : Nat), bs ≠ [] → bs' ≠ [] →
    StreamOk pos bs → StreamOk pos bs' → streamBits bs ++ r = streamBits bs' ++ r' → bs = bs' ∧ r = r' := by
  induction bs with
  | nil => intro _ _ h; exact absurd rfl h
  | cons b bs ih =>
    intro bs' pos _ h' hok hok' he
    cases bs' with
    | nil => exact absurd rfl h'
    | cons b' bs' =>
      rw [streamBits_cons, streamBits_cons, List.append_assoc, List.append_assoc] at he
      obtain ⟨e1, rfl, he1⟩ := block_app hok.1 hok'.1 he
      cases bs with
      | nil =>
        have : bs' = [] := by simpa using e1.symm
        subst this
        exact ⟨rfl, he1⟩
      | cons c cs =>
        have hne : bs' ≠ [] := by rintro rfl; simp at e1
        obtain ⟨e2, e3⟩ := ih bs' _ (by simp) hne hok.2 hok'.2 he1
        exact ⟨by rw [e2], e3⟩

theorem stream_fault {r bad : List Bool} (bs : List Block) : ∀ (bs' : List Block) (pos : Nat) (out res out' : List UInt8), bs ≠ [] →
    StreamOk pos bs → StreamOk pos bs' → expandBlocks out bs = some res → expandBlocks out bs' = some out' →
    FaultyBlock out' bad → streamBits bs ++ r = bs'.flatMap (Block.bits false) ++ bad → False := by
  induction bs with
  | nil => intro _ _ _ _ _ h; exact absurd rfl h
  | cons b bs ih =>
    intro bs' pos out res out' _ hok hok' e1 e2 hbad he
    obtain ⟨o, f1, f2⟩ := expandBlocks_cons e1
    rw [streamBits_cons, List.append_assoc] at he
    cases bs' with
    | nil =>
      simp only [expandBlocks, Option.some.injEq] at e2
      subst e2
      exact block_fault hok.1 f1 hbad he
    | cons b' bs' =>
      obtain ⟨o', g1, g2⟩ := expandBlocks_cons e2
      rw [List.flatMap_cons, List.append_assoc] at he
      obtain ⟨k1, rfl, he1⟩ := block_app hok.1 hok'.1 he
      rw [f1] at g1
      obtain rfl := Option.some.inj g1
      have hne : bs ≠ [] := by rintro rfl; simp at k1
      exact ih bs' _ o res out' hne hok.2 hok'.2 f2 g2 hbad he1

/-- Bytes stand for one output at most. -/
theorem inflates_unique {z a b : Bytes} (ha : Inflates z a) (hb : Inflates z b) : a = b := by
  obtain ⟨bs, r, h0, h1, h2, h3⟩ := ha
  obtain ⟨bs', r', h0', h1', h2', h3'⟩ := hb
  obtain ⟨rfl, -⟩ := stream_app bs bs' 0 h0 h0' h1 h1' (h2.symm.trans h2')
  exact Option.some.inj (h3.symm.trans h3')

/-- Data that follow the standard have no fault. -/
theorem inflates_not_faulty {z out : Bytes} (h : Inflates z out) : ¬Faulty z := by
  rintro ⟨bs', o, bad, k1, k2, k3, k4⟩
  obtain ⟨bs, r, h0, h1, h2, h3⟩ := h
  exact stream_fault bs bs' 0 [] out o h0 h1 k1 h3 k3 k4 (h2.symm.trans k2)

/-! ### A fault stays a fault -/

theorem NoCode.append {lens : List Nat} {more : List Bool} (h : NoCode lens more) (w : List Bool) : NoCode lens (more ++ w) := by
  intro s hs
  obtain ⟨h1, h2⟩ := h s hs
  refine ⟨fun hp => ?_, fun hp => h2 ((List.prefix_append more w).trans hp)⟩
  rcases Nat.le_total (huff lens s).length more.length with hl | hl
  · exact h1 (List.prefix_of_prefix_length_le hp (List.prefix_append more w) hl)
  · exact h2 (List.prefix_of_prefix_length_le (List.prefix_append more w) hp hl)

theorem FaultAt.append {lit dist : List Nat} {out : List UInt8} {more : List Bool} (h : FaultAt lit dist out more) (w : List Bool) :
    FaultAt lit dist out (more ++ w) := by
  cases h with
  | noSymbol _ none => exact .noSymbol _ (NoCode.append none w)
  | badLength ls more has bad => rw [List.append_assoc]; exact .badLength ls _ has bad
  | noDistance ls le more has h1 h2 h3 none => rw [List.append_assoc]; exact .noDistance ls le _ has h1 h2 h3 (NoCode.append none w)
  | badDistance ls le ds more has h1 h2 h3 hasd bad => rw [List.append_assoc]; exact .badDistance ls le ds _ has h1 h2 h3 hasd bad
  | tooFar t more ok bad => rw [List.append_assoc]; exact .tooFar t _ ok bad

theorem FaultyBlock.append {out : List UInt8} {more : List Bool} (h : FaultyBlock out more) (w : List Bool) :
    FaultyBlock out (more ++ w) := by
  cases h with
  | fixed final toks out' more ok exp bad => rw [List.append_assoc]; exact .fixed final toks out' _ ok exp (FaultAt.append bad w)
  | dynamic final d ops lit dist toks out' more fits ok ops_ok lens hlit hdist ulit udist toks_ok exp bad =>
    rw [List.append_assoc]
    exact .dynamic final d ops lit dist toks out' _ fits ok ops_ok lens hlit hdist ulit udist toks_ok exp (FaultAt.append bad w)
  | noLength final d ops lens more fits ok ops_ok exp few none =>
    rw [List.append_assoc]; exact .noLength final d ops lens _ fits ok ops_ok exp few (NoCode.append none w)
  | tooManyCodes final d more fits bad => rw [List.append_assoc]; exact .tooManyCodes final d _ fits bad

theorem Faulty.append {z : Bytes} (h : Faulty z) (w : Bytes) : Faulty (z ++ w) := by
  obtain ⟨bs, o, bad, h1, h2, h3, h4⟩ := h
  exact ⟨bs, o, bad ++ Spec.bits w, h1, by rw [bits_append, h2, List.append_assoc], h3, FaultyBlock.append h4 _⟩

end Npy
