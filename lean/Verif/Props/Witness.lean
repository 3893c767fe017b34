import Verif.Props.HeaderObject
import Verif.Props.Globals
import Verif.Props.Throwing
import Verif.Props.LocaleNpz
import Verif.Props.Fits
import Verif.Props.Exhaust
import Verif.Props.Size
import Verif.Props.Host
import Verif.Props.Program
import Verif.Props.Crash
import Verif.Props.Memory
import Verif.Props.Accept
import Verif.Props.Walk
import Verif.Props.Fill
import Verif.Props.InflateAll
import Verif.Props.Foreign
import Verif.Props.Peek
import Verif.Props.Replace
import Verif.Props.Device
import Verif.Props.Limits
import Verif.Props.Custom
/-!
# The theorems applied

Most theorems have an example beside them. Here are cases for the others: each line applies a theorem to concrete, non-trivial
arguments, so its hypotheses are met by them.
-/

set_option maxRecDepth 8000

namespace Npy
open Spec

/-- the header of this tensor is short enough -/
local macro "short" : tactic =>
  `(tactic| exact headerDict_length_le (by (first | unfold Spec.descr | unfold Spec.descrU); rw [← decimal_eq_spec]; decide +kernel))

theorem exWide_ok : TensorOk .unicode 32 exWide :=
  Tensor.ok_of_strides (by decide) (by decide) (by decide) rfl (by decide)
theorem exWide_wide (cfg : Cfg) (h : cfg.wchar16 = false) : ∀ v ∈ exWide.values, IsWide cfg v := by
  unfold IsWide; rw [h]; decide

/-- a loaded file, for the theorems about loads that return -/
theorem exTensor_loads : ∃ bytes s', saveToString exCfg (fixedOps .int16) exTensor .big = .ok bytes ∧
    load exCfg (fixedOps .int16) (IStream.ofBytes bytes) = (.ok exTensor, s') := by
  obtain ⟨b, h1, h2⟩ := C01_npy_roundtrip exCfg .int16 (by decide) exTensor exTensor_ok exTensor_elems .big (by short)
  exact ⟨b, _, h1, by simpa using h2 []⟩

theorem exWide_loads : ∃ bytes s', saveToString exCfg wideOps exWide .big = .ok bytes ∧
    load exCfg wideOps (IStream.ofBytes bytes) = (.ok exWide, s') := by
  obtain ⟨b, h1, h2⟩ := C03_unicode_roundtrip exCfg exWide exWide_ok (exWide_wide _ rfl) (by decide) .big (by decide) (by short)
  exact ⟨b, _, h1, by simpa using h2 []⟩

/-! ### Files -/

example := C01_eight_axes exCfg .int16 (by decide) exTensor exTensor_ok exTensor_elems .big (by decide)
example := C02_length_field exCfg .int16 (by decide) exTensor exTensor_elems .big
example := C03_eight_axes exCfg exWide exWide_ok (exWide_wide _ rfl) (by decide) .big (by decide) (by decide)
example := C03_unicode_load exCfg exNul (Tensor.ok_of_strides (by decide) (by decide) (by decide) rfl (by decide))
  (by unfold IsWide; decide) .big (by decide) (by short)
example := C04_npy_format_unicode exCfg exWide .big (by short)
example := C04_data_aligned exCfg .complex64 (by decide) exComplex exComplex_elems .big
example := C05_data_order exCfg .int16 (by decide) exTensor exTensor_elems .big (.inl rfl)
example := C05_data_order_exact exCfg .complex64 (by decide) exComplex exComplex_elems .big
example := C06_between_hosts_exact exCfg ⟨true, true, false⟩ .complex64 (by decide) exComplex exComplex_ok exComplex_elems .big (by short)
example := C06_unicode_between_hosts exCfg ⟨true, true, false⟩ exWide exWide_ok (exWide_wide _ rfl) (by decide) .native (by decide) (by short)
example := C07_peek_saved_unicode exCfg exWide exWide_ok .big (by decide) (by short)
example := C89_saved_unicode exCfg exWide exWide_ok .big (by decide) (by short)
example : ∃ (s s1 : IStream) (info : HeaderInfo), peek exCfg s = (.ok info, s1) ∧ info.shape = [2, 3] := by
  obtain ⟨b, s', -, h⟩ := exTensor_loads
  obtain ⟨info, s1, h1, h2, -⟩ := C07_load_agrees_with_peek exCfg _ _ _ _ h
  exact ⟨_, s1, info, h1, h2⟩
example : saveToString exCfg wideOps exWide .big ≠ saveToString exCfg wideOps { exWide with values := exWide.values.reverse } .big := by
  intro h
  have := C17_save_injective_unicode exCfg exWide { exWide with values := exWide.values.reverse } exWide_ok
    (Tensor.ok_of_strides (by decide) (by decide) (by decide) rfl (by decide)) (exWide_wide _ rfl)
    (by unfold IsWide; decide) (by decide) (by decide) .big (by decide) (by decide) (by short) (by short) h
  revert this
  decide
example := C09_numpy_header exCfg .float64 (by decide) true true [2, 3] (by decide) (Nat.lt_of_le_of_lt (m := 245) (by short) (by decide)) b!"  "
example : ∃ (s s1 : IStream) (info : HeaderInfo), exTensor.values.length = [2, 3].prod % 2 ^ 64 ∧ peek exCfg s = (.ok info, s1) := by
  obtain ⟨b, s', -, h⟩ := exTensor_loads
  obtain ⟨h1, info, s1, h2, -⟩ := C29_size_from_header exCfg (fixedOps .int16) (LibOps.fixed .int16 (by decide)) _ _ _ h
  exact ⟨_, s1, info, h1, h2⟩
example : TensorOk .int16 2 exTensor := by
  obtain ⟨b, s', -, h⟩ := exTensor_loads
  exact (C29_loaded_wellformed exCfg .int16 (by decide) _ _ _ h).1
example : TensorOk .unicode 32 exWide := by
  obtain ⟨b, s', -, h⟩ := exWide_loads
  exact (C29_loaded_wellformed_unicode exCfg _ _ _ h).1
example := C15_inverse exCfg .float32 (by decide) .big
example : DType.int16 = .int16 ∧ (itemSize .int16 = 1 ∨ isBig exCfg .native = isBig exCfg .little) :=
  C15_injective exCfg .int16 .int16 (by decide) (by decide) .native .little rfl

/-! ### Archives -/

theorem exPuts_written (method : Nat) (h : method = STORED) : ∃ w, Writer.writeAll exCfg noCodec exPuts (Writer.newString method .little) = (.ok (), w) ∧
    w.str.length < 2 ^ 32 := by
  subst h
  obtain ⟨w, h1, -⟩ := C30_npz_roundtrip exCfg noCodec .little exPuts exPuts_storable
  have hw : w = (Writer.writeAll exCfg noCodec exPuts (Writer.newString STORED .little)).2 := by rw [h1]
  exact ⟨w, h1, by rw [hw]; decide +kernel⟩

example : ∃ w w', Writer.writeAll exCfg noCodec exPuts (Writer.newString STORED .little) = (.ok (), w) ∧ Writer.close w = (.ok (), w') := by
  obtain ⟨w, h1, h2⟩ := exPuts_written STORED rfl
  obtain ⟨w', h, -⟩ := C30_npz_map exCfg noCodec .little exPuts w h1 h2 (by decide) (by decide) exPuts_files
  have := C34_readers exCfg noCodec STORED (by decide) .little exPuts w h1 h2 (by decide)
  have := C42_count exCfg noCodec .little exPuts w h1 h2 (by decide) exPuts_files
  have := C43_cut exCfg noCodec .little exPuts w h1 h2 (by decide) (by decide)
  exact ⟨w, w', h1, h⟩

example (j : Junk) (w : Writer) (hw : Writer.writeAll exCfg (miniz exCfg j (2 ^ 37)) exPuts (Writer.newString DEFLATED .little) = (.ok (), w))
    (hl : w.str.length < 2 ^ 32) :=
  C31_npz_map exCfg j (2 ^ 37) (by norm_num) rfl .little exPuts w hw hl (by decide) (by decide)
    fun p hp f hf => .inl (Nat.le_trans (exPuts_small p hp f hf) (by decide))

example : Reader.open (IStream.ofBytes (exTwo ++ [0])) = .error (.throw (.runtimeError .badSignature)) :=
  C46_end_record _ (by decide +kernel) (by decide +kernel) _ (.inl rfl)
example := C49_sticky exCfg noCodec (exAfter [.read _ (fixedOps .int16) b!"a"]) exTwoBad_fail b!"b" (.inr exTwoBad_contains)
example := C47_save exCfg .big ⟨Elem, fixedOps .int16, exTensor⟩ (.inl ⟨_, _, rfl⟩)

/-! ### Custom tensor classes -/

example := C60_file exCfg (eigenClass .float64 true) exMatrix .big [2, 3] _ _ (eigen_shape .float64 true exMatrix)
  (exMatrix_ok.dtype exCfg true .big) (exMatrix_ok.data exCfg true .big) (exMatrix_ok.dict _ _)
example := C60_load exCfg ⟨true, true, false⟩ (eigenClass .float64 true) (tensorClass (fixedOps .float64)) exMatrix .big [2, 3] .float64
  (by decide) true _ (eigen_shape .float64 true exMatrix) (exMatrix_ok.dtype exCfg true .big) (exMatrix_ok.data exCfg true .big)
  (by decide) (exMatrix_ok.dict _ _)
example := C61_tensor exCfg .float64 false exMatrix exMatrix_ok .big
example := C61_dtype_unchecked exCfg true false exMatrix exMatrix_ok .native
example := C61_scalar_false exCfg .int16 .float32 (by decide) true ⟨[], [], false, .int16, [[7]]⟩
  (Tensor.ok_of_strides (by decide) (by decide) (by decide) rfl (by decide))
  (by intro v hv; obtain rfl := List.mem_singleton.1 hv; exact ⟨rfl, by decide⟩) rfl .little

/-! ### Headers -/

example : ∃ s : IStream, exTensor.dtype = .int16 ∧ ∃ info s1, peek exCfg s = (.ok info, s1) ∧ info.dtype = some .int16 := by
  obtain ⟨b, s', -, h⟩ := exTensor_loads
  exact ⟨_, C08_returned_type exCfg _ _ _ _ h⟩
example := C10_bound_immaterial exCfg HeaderInfo.uninit (IStream.ofBytes b!"'descr': '<i2', }") 18 1000 (by decide)
example : loadFromString ⟨false, false, false⟩ (fixedOps .int16) (b!"PK" ++ List.replicate 20 0) = .error .abort :=
  C14_debug_magic _ rfl _ _ (by decide) (by decide)
example := C18_shape_roundtrip exCfg .float64 (by decide) true true [2, 3] (by decide) (Nat.lt_of_le_of_lt (m := 245) (by short) (by decide)) b!"  "
theorem exItemsWide : ItemsLayout [.shape [2, 3], .descr b!">U3", .fortranOrder true]
    b!"\n 'shape' :\t( 2,\n3 ),  'descr':'>U3',  'fortran_order' : True," := by
  have w (l : Bytes) (h : ∀ b ∈ l, b.toNat = 32 ∨ (9 ≤ b.toNat ∧ b.toNat ≤ 13)) : Spec.White l := h
  have n2 : Spec.IsNumeral b!"2" 2 := ⟨by decide, by decide, by decide⟩
  have n3 : Spec.IsNumeral b!"3" 3 := ⟨by decide, by decide, by decide⟩
  have hs : Spec.ShapeLayout [2, 3] b!" 2,\n3 " :=
    .cons (ws := b!" ") (rest := b!"\n3 ") (w _ (by decide)) n2 (.last (ws := b!"\n") (ws' := b!" ") (w _ (by decide)) n3 (w _ (by decide)))
  exact .cons (w1 := b!"\n ") (w2 := b!" ") (w3 := b!"\t") (w4 := b!"  ") (v := b!"( 2,\n3 )")
    (w _ (by decide)) (w _ (by decide)) (w _ (by decide)) (w _ (by decide)) (.shape hs)
    (.cons (w1 := []) (w2 := []) (w3 := []) (w4 := b!"  ") (v := b!"'>U3'")
      (w _ (by decide)) (w _ (by decide)) (w _ (by decide)) (w _ (by decide)) (.descr (code := b!">U3"))
      (.cons (w1 := []) (w2 := b!" ") (w3 := b!" ") (w4 := []) (v := b!"True")
        (w _ (by decide)) (w _ (by decide)) (w _ (by decide)) (w _ (by decide)) (.fortranOrder (b := true)) .nil))

example := C09_dictionary_layouts_unicode exCfg 3 (by decide) true true [2, 3] (by decide) [.shape [2, 3], .descr (Spec.descrU 3 true), .fortranOrder true]
  (by decide) b!"\n 'shape' :\t( 2,\n3 ),  'descr':'>U3',  'fortran_order' : True," (by
    have : Spec.descrU 3 true = b!">U3" := by unfold Spec.descrU; rw [← decimal_eq_spec]; decide
    rw [this]
    exact exItemsWide) (by decide) []

/-! ### Tensors -/

example := C23_get_set_unsigned exC exC_ok (by decide) [1, 2] (by decide) [99]
example := C24_out_of_range exF exF_ok [1, -4] (by unfold IsInt32; decide) 1 (by decide) (-4) rfl (by decide) [9]
example := C25_unsigned_rejects exC exC_ok [1, 3] rfl (by decide) [9]
example := C25_unsigned_long exC exC_ok [1, 2] [7, 8] (by decide)
example := C25_unsigned_short_undefined exF exF_ok [1] (by decide)
example := C27_safe exF exF_ok (by decide)
example (cfg : Cfg) (env : TEnv Elem) (h : env 0 = some exC) := C26_rejects cfg (fixedOps .int16) env 0 exC h [[1]] 7 (by decide) (by decide)
example (cfg : Cfg) (env : TEnv Elem) (h : env 0 = some exC) := C20_assign cfg (fixedOps .int16) env 1 0 (by decide) exC h
example (cfg : Cfg) (env : TEnv Elem) (h : env 0 = some exC) :=
  C69_last_assignment cfg (fixedOps .int16) env 0 exC h exC_ok (by decide) [.setU 0 [1, 2] [7], .setU 0 [1, 2] [8], .set 0 [-1, 0] [9]]
    (by
      intro op hop
      simp only [List.mem_cons, List.not_mem_nil, or_false] at hop
      rcases hop with rfl | rfl | rfl
      exacts [⟨rfl, rfl⟩, ⟨rfl, rfl⟩, ⟨rfl, by unfold IsInt32; decide⟩])
example (cfg : Cfg) (env : TEnv Elem) (h : env 0 = some exF) :=
  C69_fill cfg (fixedOps .int16) env 0 exF h exF_ok (by decide) (fun idx => [idx.sum]) (storageOrder true [2, 3])
    (C70_visits_all true [2, 3]).2.1

/-! ### Paths and programs -/

example (bytes : Bytes) (h : exFs.file b!"/a" = some bytes) (hr : exFs.readable b!"/a" = true) :=
  C53_like_streams exCfg (fixedOps .int16) (LibOps.fixed .int16 (by decide)) exFs b!"/a" bytes h hr

/-! ### Streams that throw, locales, decompression, archives of any origin -/

example := C81_peek exCfg (IStream.ofBytes b!"short") rfl
example := C80_save_iff exCfg exGerman (by decide) .int16 (by decide) exTensor exTensor_elems .big (by short)
example := C80_load_saved exCfg (some exGerman) (by unfold Readable; decide) .int16 (by decide) exTensor exTensor_ok exTensor_elems .big (by short)
example := C80_load_saved_unicode exCfg (some exGerman) (by unfold Readable; decide) exWide exWide_ok (exWide_wide _ rfl) (by decide) .big
  (by decide) (by short)
theorem exAba : Deflate.Inflates [75, 76, 74, 4, 0] [97, 98, 97] := aba_inflates.inflates
example := C55_safe [75, 76, 74, 4, 0] _ exAba (.inl (by decide)) 100 (by decide)
example := C55_never_wrong [75, 76, 74, 4, 0] _ exAba (.inl (by decide)) 100 (by decide)
theorem exAba_sound : ¬ Deflate.Faulty [75, 76, 74, 4, 0] := fun h => C68_fault_breaks_standard _ [] _ h (by simpa using exAba)
example := C68_memory_sound [75, 76, 74, 4, 0] exAba_sound (by decide) 20000 (by decide)
example := C51_any [75, 76, 74, 4, 0] exAba_sound (by decide) 20000 (by decide)
example := C56_any [75, 76, 74, 4, 0] exAba_sound (by decide) 20000 (by decide)
example := C78_inflate [75, 76, 74, 4, 0] _ exAba_sound (by decide) 20000 (by decide) (C55_safe _ _ exAba (.inl (by decide)) 20000 (by decide))
example := C68_unique _ _ _ exAba exAba
example := C71_keys exCfg noCodec exTwoBad _ (.inl rfl) _ exTwoBad_opens [.peek b!"a"]
example : (Reader.readFile noCodec b!"c" ((exReader exTwoBad).after exCfg noCodec [])).1 = .error (.throw (.invalidArgument .filename)) :=
  C71_absent exCfg noCodec exTwoBad _ (.inl rfl) _ exTwoBad_opens [] b!"c" (by decide +kernel)

end Npy
