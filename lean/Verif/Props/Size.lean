import Verif.Props.InflateAll
import Verif.Props.Deflate
import Verif.Props.Data
import Verif.Props.Host
import Verif.Props.Foreign
/-!
# How large results can be, compared with the data they come from (C78)
-/

namespace Npy
open Spec.Deflate

/-- A token makes at most 129 bytes per bit. -/
theorem tok_expand_length {lit dist : List Nat} {t : Tok} (ht : t.Ok lit dist) {out out' : List UInt8} (h : t.expand out = some out') :
    out'.length ≤ out.length + 129 * (t.bits lit dist).length := by
  cases t with
  | lit b =>
    simp only [Tok.Ok] at ht
    simp only [Tok.expand, Option.some.injEq] at h
    rw [← h, Tok.bits, huff_length, List.length_append, List.length_singleton]
    omega
  | copy ls le ds de =>
    obtain ⟨h1, h2, h3, h4, -, h6, -⟩ := ht
    have hl := copyBack_length h
    have h258 : lenBase.getD (ls - 257) 0 + le ≤ 258 := by
      obtain ⟨k, rfl⟩ := Nat.exists_eq_add_of_le h1
      have hk : k < 29 := by omega
      rw [Nat.add_sub_cancel_left] at h4 ⊢
      have : ∀ k < 29, lenBase.getD k 0 + 2 ^ lenExtra.getD k 0 ≤ 259 := by decide
      have := this k hk
      omega
    simp only [Tok.bits, List.length_append, huff_length]
    omega

theorem toks_expand_length {lit dist : List Nat} (ts : List Tok) (ht : ∀ t ∈ ts, t.Ok lit dist) {out out' : List UInt8}
    (h : expandToks out ts = some out') : out'.length ≤ out.length + 129 * (ts.flatMap (Tok.bits lit dist)).length := by
  induction ts generalizing out with
  | nil => simp only [expandToks, Option.some.injEq] at h; rw [h]; omega
  | cons t ts ih =>
    rw [expandToks] at h
    obtain ⟨o, h1, h2⟩ := Option.bind_eq_some_iff.1 h
    have a := tok_expand_length (ht t (by simp)) h1
    have b := ih (fun t ht' => ht t (by simp [ht'])) h2
    rw [List.flatMap_cons, List.length_append]
    omega

theorem block_expand_length {pos : Nat} {b : Block} (hb : b.Ok pos) {out out' : List UInt8} (final : Bool) (h : b.expand out = some out') :
    out'.length ≤ out.length + 129 * (b.bits final).length := by
  cases b with
  | stored pad data =>
    simp only [Block.expand, Option.some.injEq] at h
    have : (Spec.bits data).length = 8 * data.length := bits_length data
    rw [← h, Block.bits]
    simp only [List.length_append, this]
    omega
  | fixed toks =>
    have := toks_expand_length toks hb h
    rw [Block.bits]
    simp only [List.length_append]
    omega
  | dynamic d toks =>
    have := toks_expand_length toks hb.2 h
    rw [Block.bits]
    simp only [List.length_append]
    omega

theorem blocks_expand_length (bs : List Block) {pos : Nat} (hb : StreamOk pos bs) {out out' : List UInt8} (h : expandBlocks out bs = some out') :
    out'.length ≤ out.length + 129 * (streamBits bs).length := by
  induction bs generalizing pos out with
  | nil => simp only [expandBlocks, Option.some.injEq] at h; rw [h]; omega
  | cons b bs ih =>
    rw [expandBlocks] at h
    obtain ⟨o, h1, h2⟩ := Option.bind_eq_some_iff.1 h
    have a := ih hb.2 h2
    cases bs with
    | nil =>
      have := block_expand_length hb.1 true h1
      simp only [streamBits, List.length_nil] at a ⊢
      omega
    | cons c cs =>
      have := block_expand_length hb.1 false h1
      rw [streamBits, List.length_append]
      · omega
      · simp

/-- **C78** The bytes a DEFLATE stream stands for are at most 1032 times as many as the bytes of the stream. -/
theorem C78_standard (z out : Bytes) (h : Inflates z out) : out.length ≤ 1032 * z.length := by
  obtain ⟨blocks, rest, -, h1, h2, h3⟩ := h
  have a := blocks_expand_length blocks h1 h3
  have b := congrArg List.length h2
  have c : (Spec.bits z).length = 8 * z.length := bits_length z
  rw [List.length_append, c] at b
  simp only [List.length_nil] at a
  omega

/-- **C78** What `npy_inflate` returns for data of at most 1 MiB, whoever made them, is at most 1032 times as long as the data (unless
the data break the format in one of the four ways listed under C68). -/
theorem C78_inflate (z out : Bytes) (hz : ¬Faulty z) (hsize : z.length ≤ 1048576) (fuel : Nat) (hf : 2064 * z.length + 3 ≤ fuel)
    (h : npyInflate false fuel z = .ok out) : out.length ≤ 1032 * z.length :=
  (C68_returned z out hsize fuel hf h).elim (C78_standard z out) fun hf => absurd hf hz

/-- Five bytes can be expanded to 5160 at most, and are expanded to three here. -/
example : npyInflate false 20000 [75, 76, 74, 4, 0] = .ok [97, 98, 97] ∧ [97, 98, 97].length ≤ 1032 * 5 := by
  have h : npyInflate false 20000 [75, 76, 74, 4, 0] = .ok [97, 98, 97] := by
    obtain ⟨b, r, h0, h1, h2, -, h3⟩ := aba_inflates
    exact C55_window _ _ ⟨b, r, h0, h1, h2, h3⟩ (by decide) _ (by decide)
  exact ⟨h, C78_standard [75, 76, 74, 4, 0] _ (by obtain ⟨b, r, h0, h1, h2, -, h3⟩ := aba_inflates; exact ⟨b, r, h0, h1, h2, h3⟩)⟩

/-- **C78** is false of `load`: a file of 128 bytes can make it return an array of any size below `2^63` bytes. -/
theorem C78_false_load (cfg : Cfg) (n : Nat) (hn : n < 2 ^ 63) :
    ∃ file y, file.length = 128 ∧ loadFromString cfg (fixedOps .uint8) file = .ok y ∧ y.shape = [n] ∧ y.values.length = n := by
  have hx : Spec.TensorOk .uint8 (Spec.itemSize .uint8) ⟨[n], [1], false, .uint8, List.replicate n [0]⟩ := by
    refine Tensor.ok_of_strides ?_ ?_ ?_ rfl rfl
    · intro m hm
      simp only [List.mem_singleton] at hm
      omega
    · show (List.replicate n _).length = [n].prod % 2 ^ 64
      rw [List.length_replicate, List.prod_singleton, Nat.mod_eq_of_lt (by omega)]
    · show (List.replicate n _).length * 1 < _
      rw [List.length_replicate]
      omega
  have hlen := headerDict_rank8 .uint8 (by decide) (Spec.isBig cfg .native) false [n] hx.extents (by simp)
  have hv : ∀ v ∈ List.replicate n [0], Spec.IsElem .uint8 v := by
    intro v hv
    rw [List.eq_of_mem_replicate hv]
    exact ⟨rfl, by decide⟩
  obtain ⟨header, data, h1, h2, h3⟩ := C13_truncated cfg .uint8 (by decide) ⟨[n], [1], false, .uint8, List.replicate n [0]⟩ hx hv .native hlen
  obtain ⟨y, a1, a2, -, -, a3, -⟩ := h3 0 (Nat.zero_le _)
  rw [List.take_zero, List.append_nil] at a1
  refine ⟨header, y, ?_, a1, a2, by rw [a3]; exact List.length_replicate⟩
  rw [saveToString_fixed (by decide) hv, Except.ok.injEq] at h1
  have h4 := congrArg List.length h1
  have h5 : ((List.replicate n [0]).flatMap (fixedBytes cfg .uint8 .native)).length = n * 1 := by
    rw [flatMap_length 1]
    · rw [List.length_replicate]
    · intro v h
      exact fixedBytes_length ((validElem_iff .uint8 (by decide) v).2 (hv v h))
  have h6 : (Spec.headerDict (Spec.descr .uint8 (Spec.isBig cfg .native)) false [n]).length ≤ 53 + 4 + 22 := by
    have := headerDict_length_bound (Spec.descr .uint8 (Spec.isBig cfg .native)) false [n] hx.extents
    have := descr_length .uint8 (by decide) (Spec.isBig cfg .native)
    simp only [List.length_singleton] at *
    omega
  have h7 : 54 ≤ (dictionaryText (Spec.descr .uint8 (Spec.isBig cfg .native)) false [n]).length := by
    simp only [dictionaryText, List.length_append]
    have e1 : (b!"{'descr': '").length = 11 := by decide
    have e2 : (b!"', 'fortran_order': ").length = 20 := by decide
    have e3 : (if false then b!"True" else b!"False").length = 5 := by decide
    have e4 : (b!", 'shape': (").length = 12 := by decide
    have e5 : (b!"), }").length = 4 := by decide
    have e6 : (Spec.descr .uint8 (Spec.isBig cfg .native)).length = 3 := by
      cases Spec.isBig cfg .native <;> (unfold Spec.descr; rw [← decimal_eq_spec]; decide)
    rw [e1, e2, e3, e4, e5, e6]
    omega
  rw [← dictionaryText_eq_spec] at h6
  simp only [savedFixed, List.length_append, headerBytes_length, h5] at h4
  have h8 : data.length = n := by rw [h2]; show (List.replicate n _).length * 1 = n; rw [List.length_replicate]; omega
  generalize (dictionaryText (Spec.descr .uint8 (Spec.isBig cfg .native)) false [n]).length = L at h4 h6 h7
  have h9 : STATIC_HEADER_LENGTH + paddedDictLength L = 128 := by
    unfold paddedDictLength STATIC_HEADER_LENGTH
    by_cases h : (L + 1 + 10) % 64 = 0
    · omega
    · rw [if_pos h]
      omega
  omega

theorem numpyArchive_one_length (key file : Bytes) :
    (Spec.numpyArchive false true [⟨key, file, []⟩]).length = file.length + 2 * key.length + 126 := by
  simp only [Spec.numpyArchive, Spec.numpyMembers, Spec.numpyMember, Spec.foreignLocal, Spec.foreignCentral, Spec.zipEnd,
    List.flatMap_cons, List.flatMap_nil, List.append_nil, List.length_append, List.length_cons, List.length_nil, spec_le_length, reduceIte, reduceCtorEq,
    Bool.false_eq_true]
  omega

/-- **C78** is false of archives, too: an archive of 256 bytes, as `numpy.savez` would make it of that file, from which `read` gets an
array of any size below `2^63` bytes, again and again. -/
theorem C78_false_archive (cfg : Cfg) (codec : Codec) (n : Nat) (hn : n < 2 ^ 63) :
    ∃ b r, b.length = 256 ∧ Reader.open (IStream.ofBytes b) = .ok r ∧ ∀ calls : List RdCall,
      ∃ y, (Reader.read cfg codec (fixedOps .uint8) b!"x" (r.after cfg codec calls)).1 = .ok y ∧ y.shape = [n] ∧ y.values.length = n := by
  obtain ⟨file, y, h1, h2, h3, h4⟩ := C78_false_load cfg n hn
  have hl := numpyArchive_one_length b!"x" file
  obtain ⟨r, o1, -, o2⟩ := C67_numpy cfg codec true [⟨b!"x", file, []⟩] (by simp) (by simp) (by simp) (by simp [h1]) (by rw [hl, h1]; decide)
    _ (.inl rfl)
  refine ⟨_, r, by rw [hl, h1]; rfl, o1, fun calls => ⟨y, ?_, h3, h4⟩⟩
  rw [((o2 calls b!"x").1 _ (List.mem_singleton_self _) (.inr ⟨rfl, by simp⟩)).1 _ (fixedOps .uint8)]
  exact h2

end Npy
