import Verif.Proofs.Dict
import Verif.Proofs.Values
/-! Writing the header and reading it back. -/

namespace Npy

theorem shapeText_eq_spec (ns : List Nat) :
    shapeText ns = ((ns.map Spec.decimal).intersperse b!", ").flatten := by
  induction ns with
  | nil => rfl
  | cons n ns ih =>
    cases ns with
    | nil => simp [shapeText, decimal_eq_spec]
    | cons m ns =>
      rw [shapeText, ih]
      · simp [decimal_eq_spec]
      · simp

theorem dictionaryText_eq_spec (d : Bytes) (f : Bool) (ns : List Nat) :
    dictionaryText d f ns = Spec.headerDict d f ns := by
  simp only [dictionaryText, Spec.headerDict, Spec.pyTuple, Spec.pyBool, shapeText_eq_spec, List.append_assoc,
    List.cons_append, List.nil_append]

theorem headerDict_layout (d : Bytes) (f : Bool) (ns : List Nat) (padding : Bytes) :
    Spec.DictLayout [.descr d, .fortranOrder f, .shape ns] (dictionaryText d f ns ++ padding) := by
  have hw0 : Spec.White [] := by simp [Spec.White]
  have hw1 : Spec.White [32] := by simp [Spec.White]
  refine ⟨_, padding, .cons hw0 hw0 hw1 hw1 .descr (.cons hw0 hw0 hw1 hw1 .fortranOrder
    (.cons hw0 hw0 hw1 hw1 (.shape (shapeText_layout ns)) .nil)), ?_⟩
  simp [dictionaryText, Spec.Field.key, Spec.pyBool]

/-! ### Padding -/

theorem paddedDictLength_mod (len : Nat) : (STATIC_HEADER_LENGTH + paddedDictLength len) % 64 = 0 := by
  unfold paddedDictLength STATIC_HEADER_LENGTH
  simp only []
  split <;> omega

theorem paddedDictLength_gt (len : Nat) : len < paddedDictLength len := by
  unfold paddedDictLength STATIC_HEADER_LENGTH
  simp only []
  split <;> omega

theorem paddedDictLength_le (len : Nat) : paddedDictLength len ≤ len + 64 := by
  unfold paddedDictLength STATIC_HEADER_LENGTH
  simp only []
  split <;> omega

theorem paddedDictLength_lt_256 (len : Nat) : paddedDictLength len < 256 ↔ len ≤ 245 := by
  unfold paddedDictLength STATIC_HEADER_LENGTH
  simp only []
  split <;> omega

theorem headerEnd_length (len : Nat) : len + (headerEnd len).length = paddedDictLength len := by
  have := paddedDictLength_gt len
  simp [headerEnd]; omega

/-- The bytes of the header. -/
def headerBytes (d : Bytes) (f : Bool) (ns : List Nat) : Bytes :=
  staticHeader (paddedDictLength (dictionaryText d f ns).length) ++ dictionaryText d f ns ++
    headerEnd (dictionaryText d f ns).length

theorem writeNpyHeader_ok {o : OStream} (ho : o.Healthy) (d : Bytes) (f : Bool) (ns : List Nat) :
    writeNpyHeader o d f ns = o.write (headerBytes d f ns) := by
  unfold writeNpyHeader headerBytes
  simp only []
  rw [OStream.write_healthy ((ho.write _).write _), OStream.write_healthy (ho.write _), OStream.write_healthy ho,
    OStream.write_healthy ho]
  simp

theorem headerBytes_length (d : Bytes) (f : Bool) (ns : List Nat) :
    (headerBytes d f ns).length = STATIC_HEADER_LENGTH + paddedDictLength (dictionaryText d f ns).length := by
  have := headerEnd_length (dictionaryText d f ns).length
  simp only [headerBytes, List.length_append, staticHeader, List.length_cons, List.length_nil, STATIC_HEADER_LENGTH]
  omega

/-! ### Reading -/

theorem readDictionary_ok {s : IStream} (h : s.good = true) (a r : Bytes) (n : Nat) (hn : a.length = n)
    (hm : n ≤ VECTOR_CHAR_MAX) : readDictionary n (s.withRest (a ++ r)) = (.ok a, s.withRest r) := by
  unfold readDictionary
  rw [if_neg (by omega), SM.bind_ok (IStream.read_append h a r n hn), hn]
  simp

/-- A version 1.0 header with a given dictionary. -/
theorem readNpyHeader_v1 (cfg : Cfg) {s : IStream} (h : s.good = true) (b8 b9 : Byte) (dict r : Bytes)
    (hl : dict.length = b8.toNat + 256 * b9.toNat) :
    readNpyHeader cfg (s.withRest ([0x93, 78, 85, 77, 80, 89, 1, 0, b8, b9] ++ (dict ++ r))) =
      (parseHeader cfg dict, s.withRest r) := by
  unfold readNpyHeader
  rw [SM.bind_ok (IStream.read_append h _ _ STATIC_HEADER_LENGTH rfl)]
  simp only [MAGIC, ne_eq, not_true_eq_false, and_false, if_false, and_self, if_true]
  have hb8 := b8.toNat_lt
  have hb9 := b9.toNat_lt
  rw [SM.bind_ok (readDictionary_ok h dict r _ hl (by rw [VECTOR_CHAR_MAX]; omega)), SM.lift_apply]

/-- A version 2.0 header with a given dictionary of less than 2 GiB. -/
theorem readNpyHeader_v2 (cfg : Cfg) {s : IStream} (h : s.good = true) (b8 b9 e0 e1 : Byte) (dict r : Bytes)
    (hl : dict.length = b8.toNat + 256 * b9.toNat + 65536 * e0.toNat + 16777216 * e1.toNat) (he : e1.toNat < 128) :
    readNpyHeader cfg (s.withRest ([0x93, 78, 85, 77, 80, 89, 2, 0, b8, b9] ++ ([e0, e1] ++ (dict ++ r)))) =
      (parseHeader cfg dict, s.withRest r) := by
  unfold readNpyHeader
  rw [SM.bind_ok (IStream.read_append h _ _ STATIC_HEADER_LENGTH rfl)]
  simp only [MAGIC, ne_eq, not_true_eq_false, and_false, if_false, and_self, if_true]
  rw [if_neg (by decide), SM.bind_ok (IStream.read_append h [e0, e1] _ 2 rfl)]
  have hb8 := b8.toNat_lt
  have hb9 := b9.toNat_lt
  have he0 := e0.toNat_lt
  simp only []
  rw [SM.bind_ok (readDictionary_ok h dict r _ (by rw [dictLengthV2, if_pos he, hl])
    (by rw [dictLengthV2, VECTOR_CHAR_MAX, if_pos he]; omega)), SM.lift_apply]

/-- The header as read back. -/
theorem readNpyHeader_saved (cfg : Cfg) {s : IStream} (h : s.good = true) {d : Bytes} {f : Bool} {ns : List Nat}
    {h1 : HeaderInfo} (hd : 39 ∉ d) (hd' : setDescr HeaderInfo.uninit d = .ok h1) (hn : ∀ n ∈ ns, n < SIZE)
    (hlen : (dictionaryText d f ns).length ≤ 245) (r : Bytes) :
    readNpyHeader cfg (s.withRest (headerBytes d f ns ++ r)) =
      (.ok { h1 with fortranOrder := some f, shape := ns }, s.withRest r) := by
  have hl : paddedDictLength (dictionaryText d f ns).length < 256 := (paddedDictLength_lt_256 _).2 hlen
  have e := readNpyHeader_v1 cfg h (UInt8.ofNat (paddedDictLength (dictionaryText d f ns).length)) 0
    (dictionaryText d f ns ++ headerEnd (dictionaryText d f ns).length) r (by
      rw [List.length_append, headerEnd_length]
      simp; omega)
  rw [headerBytes, staticHeader, List.append_assoc, List.append_assoc]
  rw [List.append_assoc] at e
  rw [e]
  congr 1
  refine parseHeader_layout cfg (headerDict_layout d f ns _) ?_ ?_ _ ?_
  · intro g hg
    simp only [List.mem_cons, List.not_mem_nil, or_false] at hg
    rcases hg with rfl | rfl | rfl
    · exact hd
    · trivial
    · exact hn
  · rw [List.length_append, headerEnd_length, BUFFER_SIZE]; omega
  · simp [applyFields, applyField, hd']

end Npy
