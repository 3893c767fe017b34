import Verif.Model.Print
import Verif.Proofs.LocaleText
/-!
# C87: printing data types and byte orders
-/

namespace Npy

/-- The characters digits are made of: `0`-`9`, `a`-`f`, `A`-`F`. -/
def Spec.isHexDigit (b : Byte) : Bool :=
  decide (48 ≤ b.toNat ∧ b.toNat ≤ 57) || decide (97 ≤ b.toNat ∧ b.toNat ≤ 102) || decide (65 ≤ b.toNat ∧ b.toNat ≤ 70)

theorem pad_filter (f : Format) (s : Bytes) (p : Byte → Bool) (h : p f.fill = false) :
    (f.pad s).filter p = s.filter p := by
  have hr : ∀ k, (List.replicate k f.fill).filter p = [] := by
    intro k
    rw [List.filter_replicate, if_neg (by rw [h]; decide)]
  unfold Format.pad
  split
  · rfl
  · split
    · rw [List.filter_append, hr, List.append_nil]
    · rw [List.filter_append, hr, List.nil_append]
    · rename_i k _ _
      simp only []
      generalize (match s with
        | c :: d :: _ => if c = 43 || c = 45 then 1 else if c = 48 && (d = 120 || d = 88) then 2 else 0
        | [c] => if c = 43 || c = 45 then 1 else 0
        | [] => 0) = keep
      rw [List.filter_append, List.filter_append, hr, List.append_nil, ← List.filter_append, List.take_append_drop]

theorem digits_length (up : Bool) (r : Radix) : ∀ n < 16, (radixDigits up n r).length = 1 ∨ (radixDigits up n r).length = 2 := by
  cases r <;> cases up <;> decide +kernel

theorem digits_short (f : Format) {n : Nat} (h : n < 16) :
    (∃ a, f.digits n = [a]) ∨ ∃ a b, f.digits n = [a, b] := by
  have hl := digits_length f.uppercase f.radix n h
  change (f.digits n).length = 1 ∨ (f.digits n).length = 2 at hl
  revert hl
  match f.digits n with
  | [] => simp
  | [a] => exact fun _ => .inl ⟨a, rfl⟩
  | [a, b] => exact fun _ => .inr ⟨a, b, rfl⟩
  | _ :: _ :: _ :: _ => simp

theorem digits_hex (up : Bool) (r : Radix) : ∀ n < 16, ∀ d ∈ radixDigits up n r, Spec.isHexDigit d = true := by
  cases r <;> cases up <;> decide +kernel

theorem digits_inj (up : Bool) (r : Radix) : ∀ n < 16, ∀ m < 16, radixDigits up n r = radixDigits up m r → n = m := by
  cases r <;> cases up <;> decide +kernel

theorem digits_zero (f : Format) : f.digits 0 = [48] := by
  unfold Format.digits
  cases f.radix <;> cases f.uppercase <;> decide +kernel

/-- The separator the locale puts between two digits. -/
def Format.between (f : Format) : Bytes :=
  match f.loc with
  | none => []
  | some p => if p.group = 1 then [p.sep] else []

theorem group_one (f : Format) (a : Byte) : f.group [a] = [a] := by
  unfold Format.group
  cases f.loc with
  | none => rfl
  | some p =>
    show (if 0 < p.group ∧ p.group < [a].length then _ else _) = _
    rw [if_neg]
    simp only [List.length_singleton]
    omega

theorem group_two (f : Format) (a b : Byte) : f.group [a, b] = a :: (f.between ++ [b]) := by
  unfold Format.group Format.between
  cases f.loc with
  | none => rfl
  | some p =>
    show (if 0 < p.group ∧ p.group < [a, b].length then _ else _) = _
    by_cases h : p.group = 1
    · rw [if_pos (by rw [h]; simp)]
      simp only [h, if_true]
      show addGrouping p.sep 1 _ [a] ++ p.sep :: [b] = _
      cases hn : nextSizes (1 :: p.more) with
      | nil => rfl
      | cons k ks =>
        show (if 0 < k ∧ k < [a].length then _ else _) ++ _ = _
        rw [if_neg (by simp only [List.length_singleton]; omega)]
        rfl
    · rw [if_neg (by simp only [List.length_cons, List.length_nil]; omega)]
      simp [h]

theorem lead_filter (f : Format) : ∃ L, (L = [] ∨ L = [48]) ∧
    ∀ n, (f.lead n).filter Spec.isHexDigit = if n = 0 then [] else L := by
  obtain ⟨r, sb, sp, up, ad, w, fi, lo⟩ := f
  unfold Format.lead
  cases r
  · refine ⟨[], .inl rfl, fun n => ?_⟩
    cases sp
    · simp
    · show (List.filter Spec.isHexDigit [43]) = _
      rw [show List.filter Spec.isHexDigit [43] = [] from by decide, ite_self]
  · cases sb
    · exact ⟨[], .inl rfl, fun n => by simp⟩
    · refine ⟨[48], .inr rfl, fun n => ?_⟩
      by_cases h : n = 0
      · simp [h]
      · simp [h]
        decide
  · cases sb
    · exact ⟨[], .inl rfl, fun n => by simp⟩
    · refine ⟨[48], .inr rfl, fun n => ?_⟩
      by_cases h : n = 0
      · simp [h]
      · cases up <;> simp [h] <;> decide

theorem group_filter (f : Format) {n : Nat} (hn : n < 16) :
    (∃ a, f.digits n = [a] ∧ (f.group (f.digits n)).filter Spec.isHexDigit = [a]) ∨
    ∃ a b, f.digits n = [a, b] ∧
      (f.group (f.digits n)).filter Spec.isHexDigit = a :: (f.between.filter Spec.isHexDigit ++ [b]) := by
  have hx := digits_hex f.uppercase f.radix n hn
  change ∀ d ∈ f.digits n, _ at hx
  rcases digits_short f hn with ⟨a, h⟩ | ⟨a, b, h⟩
  · refine .inl ⟨a, h, ?_⟩
    rw [h] at hx
    rw [h, group_one]
    simp [hx a (by simp)]
  · refine .inr ⟨a, b, h, ?_⟩
    rw [h] at hx
    rw [h, group_two]
    simp [hx a (by simp), hx b (by simp)]

theorem group_inj (f : Format) {n m : Nat} (hn : n < 16) (hm : m < 16)
    (h : (f.group (f.digits n)).filter Spec.isHexDigit = (f.group (f.digits m)).filter Spec.isHexDigit) : n = m := by
  refine digits_inj f.uppercase f.radix n hn m hm ?_
  change f.digits n = f.digits m
  rcases group_filter f hn with ⟨a, e1, e2⟩ | ⟨a, b, e1, e2⟩ <;> rcases group_filter f hm with ⟨c, e3, e4⟩ | ⟨c, d, e3, e4⟩ <;>
    rw [e2, e4] at h <;> rw [e1, e3]
  · exact h
  · simp at h
  · simp at h
  · rw [List.cons.injEq] at h
    have h2 := List.append_cancel_left h.2
    rw [h.1, h2]

/-- The text without width: a lead that depends only on whether the number is 0, and one or two digits. -/
theorem bare_inj (f : Format) {n m : Nat} (hn : n < 16) (hm : m < 16)
    (h : (f.lead n ++ f.group (f.digits n)).filter Spec.isHexDigit =
      (f.lead m ++ f.group (f.digits m)).filter Spec.isHexDigit) : n = m := by
  obtain ⟨L, hL, hl⟩ := lead_filter f
  have ne : ∀ {k}, k < 16 → (f.group (f.digits k)).filter Spec.isHexDigit ≠ [] := by
    intro k hk h0
    rcases group_filter f hk with ⟨a, -, e⟩ | ⟨a, b, -, e⟩ <;> rw [e] at h0 <;> simp at h0
  have z : (f.group (f.digits 0)).filter Spec.isHexDigit = [48] := by
    rw [digits_zero, group_one]; decide
  have one : ∀ {k}, k < 16 → k ≠ 0 → L ++ (f.group (f.digits k)).filter Spec.isHexDigit ≠ [48] := by
    intro k hk h0 hc
    rcases hL with rfl | rfl
    · exact h0 (group_inj f hk (by decide) (by rw [z]; exact hc))
    · exact ne hk (by simpa using hc)
  rw [List.filter_append, List.filter_append, hl, hl] at h
  by_cases h1 : n = 0 <;> by_cases h2 : m = 0
  · rw [h1, h2]
  · rw [if_pos h1, if_neg h2, h1, z] at h
    exact absurd h.symm (one hm h2)
  · rw [if_neg h1, if_pos h2, h2, z] at h
    exact absurd h (one hn h1)
  · rw [if_neg h1, if_neg h2] at h
    exact group_inj f hn hm (List.append_cancel_left h)

theorem text_inj (f : Format) (hf : Spec.isHexDigit f.fill = false) (w w' : Nat) {n m : Nat} (hn : n < 16) (hm : m < 16)
    (h : Format.text { f with width := w } n = Format.text { f with width := w' } m) : n = m := by
  refine bare_inj f hn hm ?_
  have h2 := congrArg (List.filter Spec.isHexDigit) h
  unfold Format.text at h2
  rw [pad_filter { f with width := w } _ _ hf, pad_filter { f with width := w' } _ _ hf] at h2
  exact h2

theorem mem_pad {f : Format} {s : Bytes} {b : Byte} (h : b ∈ f.pad s) : b = f.fill ∨ b ∈ s := by
  unfold Format.pad at h
  split at h
  · exact .inr h
  · split at h
    · rcases List.mem_append.1 h with h | h
      · exact .inr h
      · exact .inl (List.eq_of_mem_replicate h)
    · rcases List.mem_append.1 h with h | h
      · exact .inl (List.eq_of_mem_replicate h)
      · exact .inr h
    · simp only [] at h
      rcases List.mem_append.1 h with h | h
      · rcases List.mem_append.1 h with h | h
        · exact .inr (List.mem_of_mem_take h)
        · exact .inl (List.eq_of_mem_replicate h)
      · exact .inr (List.mem_of_mem_drop h)

theorem mem_text {f : Format} {n : Nat} (hn : n < 16) {b : Byte} (h : b ∈ f.text n) :
    b = f.fill ∨ b = 43 ∨ b = 120 ∨ b = 88 ∨ Spec.isHexDigit b = true ∨ ∃ p, f.loc = some p ∧ b = p.sep := by
  rcases mem_pad h with h | h
  · exact .inl h
  rcases List.mem_append.1 h with h | h
  · obtain ⟨r, sb, sp, up, ad, w, fi, lo⟩ := f
    unfold Format.lead at h
    cases r <;> simp only [] at h <;> split at h
    · simp at h; simp [h]
    · simp at h
    · simp at h; subst h; exact .inr (.inr (.inr (.inr (.inl (by decide)))))
    · simp at h
    · split at h <;> simp at h <;> rcases h with rfl | rfl
      · exact .inr (.inr (.inr (.inr (.inl (by decide)))))
      · exact .inr (.inr (.inr (.inl rfl)))
      · exact .inr (.inr (.inr (.inr (.inl (by decide)))))
      · exact .inr (.inr (.inl rfl))
    · simp at h
  · have hx := digits_hex f.uppercase f.radix n hn
    change ∀ d ∈ f.digits n, _ at hx
    unfold Format.group at h
    cases hl : f.loc with
    | none => rw [hl] at h; exact .inr (.inr (.inr (.inr (.inl (hx b h)))))
    | some p =>
      rw [hl] at h
      rcases addGrouping_mem _ h with h | h
      · exact .inr (.inr (.inr (.inr (.inr ⟨p, rfl, h⟩))))
      · exact .inr (.inr (.inr (.inr (.inl (hx b h)))))

theorem DType.idx_lt (t : DType) : t.idx < 16 := by cases t <;> decide

theorem DType.idx_inj {t u : DType} (h : t.idx = u.idx) : t = u := by
  revert h; cases t <;> cases u <;> decide

theorem Endian.idx_lt (t : Endian) : t.idx < 16 := by cases t <;> decide

theorem Endian.idx_inj {t u : Endian} (h : t.idx = u.idx) : t = u := by
  revert h; cases t <;> cases u <;> decide

theorem split_unique {s : Byte} : ∀ {a b r q : Bytes}, s ∉ a → s ∉ b → a ++ s :: r = b ++ s :: q → a = b ∧ r = q
  | [], [], _, _, _, _, h => ⟨rfl, (List.cons.inj h).2⟩
  | [], c :: b, _, _, _, hb, h => absurd (List.cons.inj h).1 (by rintro rfl; simp at hb)
  | c :: a, [], _, _, ha, _, h => absurd (List.cons.inj h).1 (by rintro rfl; simp at ha)
  | c :: a, d :: b, r, q, ha, hb, h => by
    obtain ⟨h1, h2⟩ := List.cons.inj h
    obtain ⟨h3, h4⟩ := split_unique (fun h => ha (List.mem_cons_of_mem _ h)) (fun h => hb (List.mem_cons_of_mem _ h)) h2
    exact ⟨by rw [h1, h3], h4⟩

/-! ### C87 -/

/-- The text of a data type, `os << t`, on a new string stream with this format. -/
def printedDType (f : Format) (t : DType) : Bytes := (PrintStream.putDType ⟨OStream.empty, f⟩ t).out.buf

/-- The text of a byte order, `os << e`, on a new string stream with this format. -/
def printedEndian (f : Format) (e : Endian) : Bytes := (PrintStream.putEndian ⟨OStream.empty, f⟩ e).out.buf

/-- **C87** On a new stream the text of a data type is its position in the enumeration in decimal digits (grouped by the stream's locale,
if that groups), and that of a byte order too. -/
theorem C87_number (loc : Locale) :
    (∀ t : DType, printedDType (Format.initial loc) t = Spec.decimalIn loc t.idx) ∧
      ∀ e : Endian, printedEndian (Format.initial loc) e = Spec.decimalIn loc e.idx := by
  have key : ∀ n, (Format.initial loc).text n = Spec.decimalIn loc n := by
    intro n
    rw [← decimalL_eq]
    cases loc <;> rfl
  exact ⟨fun t => by rw [← key]; rfl, fun e => by rw [← key]; rfl⟩

/-- The value of a hexadecimal digit. -/
def Spec.hexValue (b : Byte) : Nat :=
  if b.toNat ≤ 57 then b.toNat - 48 else if b.toNat ≤ 70 then b.toNat - 55 else b.toNat - 87

/-- The base of a stream as a number. -/
def Spec.radixNumber : Radix → Nat
  | .dec => 10 | .oct => 8 | .hex => 16

/-- What the flags put in front: `+` for decimal numbers with `showpos`; `0` for octal and `0x` (`0X` with `uppercase`) for hexadecimal
numbers other than 0 with `showbase`. -/
def Spec.leadOf (f : Format) (n : Nat) : Bytes :=
  if f.radix = .dec then (if f.showpos = true then b!"+" else [])
  else if f.showbase = false ∨ n = 0 then []
  else if f.radix = .oct then b!"0" else if f.uppercase = true then b!"0X" else b!"0x"

theorem lead_eq (f : Format) (n : Nat) : f.lead n = Spec.leadOf f n := by
  unfold Format.lead Spec.leadOf
  cases f.radix <;> cases f.showbase <;> cases f.uppercase <;> by_cases h : n = 0 <;> simp [h]

theorem digits_value (up : Bool) (r : Radix) : ∀ n < 16,
    (radixDigits up n r).foldl (fun a d => Spec.radixNumber r * a + Spec.hexValue d) 0 = n ∧
      (n = 0 ∨ (radixDigits up n r).head? ≠ some 48) ∧
      ∀ d ∈ radixDigits up n r, Spec.hexValue d < Spec.radixNumber r ∧
        (up = true → ¬ (97 ≤ d.toNat)) ∧ (up = false → ¬ (65 ≤ d.toNat ∧ d.toNat ≤ 70)) := by
  cases r <;> cases up <;> decide +kernel

theorem C87_text_aux (f : Format) (n : Nat) (hn : n < 16) : ∃ ds,
    ds.foldl (fun a d => Spec.radixNumber f.radix * a + Spec.hexValue d) 0 = n ∧ (n = 0 ∨ ds.head? ≠ some 48) ∧ ds ≠ [] ∧
      (∀ d ∈ ds, Spec.isHexDigit d = true ∧ Spec.hexValue d < Spec.radixNumber f.radix ∧
        (f.uppercase = true → ¬ (97 ≤ d.toNat)) ∧ (f.uppercase = false → ¬ (65 ≤ d.toNat ∧ d.toNat ≤ 70))) ∧
      Format.text { f with width := 0 } n = Spec.leadOf f n ++
        (match f.loc with | none => ds | some p => Spec.groupDigits p.sep (p.group :: p.more) ds) := by
  obtain ⟨h1, h2, h3⟩ := digits_value f.uppercase f.radix n hn
  refine ⟨_, h1, h2, ?_, fun d hd => ⟨digits_hex _ _ n hn d hd, h3 d hd⟩, ?_⟩
  · intro h
    have := digits_length f.uppercase f.radix n hn
    rw [h] at this
    simp at this
  · unfold Format.text Format.pad
    rw [if_pos (Nat.zero_le _), ← lead_eq]
    show f.lead n ++ f.group (f.digits n) = _
    congr 1
    unfold Format.group
    cases f.loc with
    | none => rfl
    | some p => exact addGrouping_eq p.sep _ (List.cons_ne_nil _ _) _ (Nat.le_refl _)

/-- **C87** Without a width the text is: what the flags ask for in front, then the digits of the position in the stream's base, without
leading zeros and in the case the stream asks for, grouped by its locale. -/
theorem C87_text (f : Format) (t : DType) : ∃ ds,
    ds.foldl (fun a d => Spec.radixNumber f.radix * a + Spec.hexValue d) 0 = t.idx ∧ (t.idx = 0 ∨ ds.head? ≠ some 48) ∧ ds ≠ [] ∧
      (∀ d ∈ ds, Spec.isHexDigit d = true ∧ Spec.hexValue d < Spec.radixNumber f.radix ∧
        (f.uppercase = true → ¬ (97 ≤ d.toNat)) ∧ (f.uppercase = false → ¬ (65 ≤ d.toNat ∧ d.toNat ≤ 70))) ∧
      printedDType { f with width := 0 } t = Spec.leadOf f t.idx ++
        (match f.loc with | none => ds | some p => Spec.groupDigits p.sep (p.group :: p.more) ds) :=
  C87_text_aux f t.idx t.idx_lt

/-- **C87** With a width, fill characters bring a shorter text to that length: after it (`std::left`), before it (`std::right`), or
(`std::internal`) after a plus sign, after `0x`, or before it if it starts with neither. A text that is long enough stays as it is. -/
theorem C87_width (f : Format) (t : DType) :
    let bare := printedDType { f with width := 0 } t
    let fill := List.replicate (f.width - bare.length) f.fill
    (f.adjust = .left → printedDType f t = bare ++ fill) ∧
    (f.adjust = .right → printedDType f t = fill ++ bare) ∧
    (f.adjust = .internal → ∃ a b, bare = a ++ b ∧ printedDType f t = a ++ fill ++ b ∧
      (a = b!"+" ∨ a = b!"-" ∨ a = b!"0x" ∨ a = b!"0X" ∨
        a = [] ∧ bare.head? ≠ some 43 ∧ bare.take 2 ≠ b!"0x" ∧ bare.take 2 ≠ b!"0X" ∨ f.width ≤ bare.length)) := by
  intro bare fill
  have hb : bare = f.lead t.idx ++ f.group (f.digits t.idx) := by
    show Format.text { f with width := 0 } t.idx = _
    unfold Format.text Format.pad
    rw [if_pos (Nat.zero_le _)]
    rfl
  have hp : printedDType f t = f.pad bare := by rw [hb]; rfl
  rw [hp]
  have hf : ∀ {k}, f.width ≤ k → f.width - k = 0 := by omega
  clear_value bare
  unfold Format.pad
  by_cases h : f.width ≤ bare.length
  · have h0 : fill = [] := by show List.replicate _ _ = _; rw [hf h]; rfl
    rw [if_pos h, h0]
    exact ⟨fun _ => by simp, fun _ => by simp, fun _ => ⟨[], bare, rfl, rfl, .inr (.inr (.inr (.inr (.inr h))))⟩⟩
  · rw [if_neg h]
    refine ⟨fun e => by rw [e], fun e => by rw [e], fun e => ?_⟩
    rw [e]
    simp only []
    refine ⟨_, _, (List.take_append_drop _ bare).symm, rfl, ?_⟩
    match bare with
    | [] => simp
    | [c] =>
      by_cases h1 : c = 43
      · subst h1; simp
      · by_cases h2 : c = 45
        · subst h2; simp
        · simp [h1, h2]
    | c :: d :: r =>
      by_cases h1 : c = 43
      · subst h1; simp
      · by_cases h2 : c = 45
        · subst h2; simp
        · by_cases h3 : c = 48 <;> by_cases h4 : d = 120 <;> by_cases h5 : d = 88 <;> simp [h1, h2, h3, h4, h5]

/-- **C87** Printing appends the text to a stream in order, as far as its device takes it, resets the width and changes nothing else of the
format; a stream that has failed is left as it is. -/
theorem C87_appends (s : PrintStream) :
    (s.out.bad = false → ∀ t, s.putDType t = ⟨s.out.write (printedDType s.fmt t), { s.fmt with width := 0 }⟩) ∧
    (s.out.bad = false → ∀ e, s.putEndian e = ⟨s.out.write (printedEndian s.fmt e), { s.fmt with width := 0 }⟩) ∧
    (s.out.bad = true → (∀ t, s.putDType t = s) ∧ ∀ e, s.putEndian e = s) := by
  refine ⟨fun h t => ?_, fun h e => ?_, fun h => ⟨fun t => ?_, fun e => ?_⟩⟩
  · unfold PrintStream.putDType PrintStream.putInt; rw [h]; rfl
  · unfold PrintStream.putEndian PrintStream.putInt; rw [h]; rfl
  · unfold PrintStream.putDType PrintStream.putInt; rw [h]; rfl
  · unfold PrintStream.putEndian PrintStream.putInt; rw [h]; rfl

/-- **C87** Whatever the stream's base, flags, adjustment and locale, and even if the widths differ, different data types have different
texts, and so have different byte orders, if the fill character is not a digit (`0`-`9`, `a`-`f`, `A`-`F`). -/
theorem C87_tell (f : Format) (hf : Spec.isHexDigit f.fill = false) (w w' : Nat) :
    (∀ t u : DType, printedDType { f with width := w } t = printedDType { f with width := w' } u → t = u) ∧
      ∀ d e : Endian, printedEndian { f with width := w } d = printedEndian { f with width := w' } e → d = e :=
  ⟨fun t u h => DType.idx_inj (text_inj f hf w w' t.idx_lt u.idx_lt h),
    fun d e h => Endian.idx_inj (text_inj f hf w w' d.idx_lt e.idx_lt h)⟩

/-- A caller's loop: `os << std::setw(w) << t; os.put(sep);` for every data type with the width wanted for it. -/
def printAll (sep : Byte) : PrintStream → List (Nat × DType) → PrintStream
  | s, [] => s
  | s, (w, t) :: ts =>
    let s' := PrintStream.putDType ⟨s.out, { s.fmt with width := w }⟩ t
    printAll sep ⟨s'.out.write [sep], s'.fmt⟩ ts

theorem printAll_buf (sep : Byte) (ts : List (Nat × DType)) : ∀ (s : PrintStream), s.out.Healthy →
    (printAll sep s ts).out.buf =
      s.out.buf ++ ts.flatMap fun x => Format.text { s.fmt with width := x.1 } x.2.idx ++ [sep] := by
  induction ts with
  | nil => intro s _; simp [printAll]
  | cons x ts ih =>
    intro s hs
    obtain ⟨w, t⟩ := x
    have e : (PrintStream.putDType ⟨s.out, { s.fmt with width := w }⟩ t) =
        ⟨s.out.write (Format.text { s.fmt with width := w } t.idx), { s.fmt with width := 0 }⟩ := by
      unfold PrintStream.putDType PrintStream.putInt
      rw [if_neg (by simp only []; rw [hs.1]; decide)]
    have hs2 : ∀ bs, (s.out.write bs).Healthy := by
      intro bs; rw [OStream.write_healthy hs]; exact hs
    have e2 : ((s.out.write (Format.text { s.fmt with width := w } t.idx)).write [sep]).buf =
        s.out.buf ++ Format.text { s.fmt with width := w } t.idx ++ [sep] := by
      rw [OStream.write_healthy (hs2 _), OStream.write_healthy hs]
    have hs3 : ((s.out.write (Format.text { s.fmt with width := w } t.idx)).write [sep]).Healthy := by
      rw [OStream.write_healthy (hs2 _)]; exact hs2 _
    show (printAll sep ⟨OStream.write (PrintStream.putDType ⟨s.out, { s.fmt with width := w }⟩ t).out [sep],
      (PrintStream.putDType ⟨s.out, { s.fmt with width := w }⟩ t).fmt⟩ ts).out.buf = _
    rw [e]
    refine (ih ⟨_, _⟩ hs3).trans ?_
    refine (congrArg (· ++ _) e2).trans ?_
    simp only [List.flatMap_cons, List.append_assoc]

/-- **C87** From a list of data types printed into one stream, one after the other with any widths and each followed by a separator, the
data types can be read off, if the separator is not a digit, letter `x`, plus sign, the fill character or the locale's separator. -/
theorem C87_list (f : Format) (hf : Spec.isHexDigit f.fill = false) (sep : Byte) (h1 : Spec.isHexDigit sep = false)
    (h2 : sep ≠ 43 ∧ sep ≠ 120 ∧ sep ≠ 88) (h3 : sep ≠ f.fill) (h4 : ∀ p, f.loc = some p → sep ≠ p.sep)
    (ts us : List (Nat × DType))
    (h : (printAll sep ⟨OStream.empty, f⟩ ts).out.buf = (printAll sep ⟨OStream.empty, f⟩ us).out.buf) :
    ts.map (·.2) = us.map (·.2) := by
  rw [printAll_buf sep ts _ OStream.empty_healthy, printAll_buf sep us _ OStream.empty_healthy] at h
  replace h := List.append_cancel_left h
  simp only [] at h
  have hm : ∀ (w : Nat) (t : DType), sep ∉ Format.text { f with width := w } t.idx := by
    intro w t hc
    rcases mem_text t.idx_lt hc with h | h | h | h | h | ⟨p, hp, h⟩
    · exact h3 h
    · exact h2.1 h
    · exact h2.2.1 h
    · exact h2.2.2 h
    · rw [h1] at h; cases h
    · exact h4 p hp h
  induction ts generalizing us with
  | nil =>
    cases us with
    | nil => rfl
    | cons u us => simp at h
  | cons t ts ih =>
    cases us with
    | nil => simp at h
    | cons u us =>
      rw [List.flatMap_cons, List.flatMap_cons, List.append_assoc, List.append_assoc] at h
      obtain ⟨e1, e2⟩ := split_unique (hm t.1 t.2) (hm u.1 u.2) h
      rw [List.map_cons, List.map_cons, ih us e2, DType.idx_inj (text_inj f hf t.1 u.1 t.2.idx_lt u.2.idx_lt e1)]

/-- **C87** is false where the fill character is a digit: with `std::left << std::setfill('0') << std::setw(2)` an unsigned byte and a
`complex<float>` have the same text, `10`; and with `std::setfill('1')` and `std::right` an unsigned byte and a `complex<double>`. -/
theorem C87_false_fill :
    printedDType ⟨.dec, false, false, false, .left, 2, 48, none⟩ .uint8 = b!"10" ∧
    printedDType ⟨.dec, false, false, false, .left, 2, 48, none⟩ .complex64 = b!"10" ∧
    printedDType ⟨.dec, false, false, false, .right, 2, 49, none⟩ .uint8 = b!"11" ∧
    printedDType ⟨.dec, false, false, false, .right, 2, 49, none⟩ .complex128 = b!"11" := by
  decide +kernel

/-- With `std::hex << std::showbase << std::internal << std::setfill('_') << std::setw(6)` the text of `unicode` is `0x___d`, and no
other data type has it. -/
example : printedDType ⟨.hex, true, false, false, .internal, 6, 95, none⟩ .unicode = b!"0x___d" ∧
    ∀ t, printedDType ⟨.hex, true, false, false, .internal, 6, 95, none⟩ t = b!"0x___d" → t = .unicode :=
  ⟨by decide +kernel, fun t h => (C87_tell ⟨.hex, true, false, false, .internal, 6, 95, none⟩ (by decide) 6 6).1 t .unicode
    (by rw [show printedDType _ DType.unicode = b!"0x___d" from by decide +kernel]; exact h)⟩

/-- A column of data types in a locale that groups single digits. -/
example (us : List (Nat × DType))
    (h : (printAll 10 ⟨OStream.empty, ⟨.dec, false, true, false, .right, 0, 32, some ⟨46, 1, []⟩⟩⟩ us).out.buf = b!"  +8\n +1.3\n+0\n") :
    us.map (·.2) = [.float32, .unicode, .int8] := by
  refine (C87_list ⟨.dec, false, true, false, .right, 0, 32, some ⟨46, 1, []⟩⟩ (by decide) 10 (by decide) (by decide) (by decide) ?_
    [(4, .float32), (5, .unicode), (1, .int8)] us ?_).symm
  · intro p hp; rw [← Option.some.inj hp]; decide
  · rw [h]; decide +kernel

end Npy
