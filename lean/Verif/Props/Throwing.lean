import Verif.Proofs.Throwing
import Verif.Props.Npz
/-!
# Streams that throw (C81)
-/

namespace Npy

/-- `in.exceptions(failbit | badbit); npy::load<tensor<T>>(in)` on a string stream with these contents -/
def loadXString {α : Type} (cfg : Cfg) (ops : ElemOpsX α) (bytes : Bytes) : Except Err (Tensor α) :=
  (loadX cfg ops (IStream.ofBytes bytes)).1

/-- The same with `npy::peek`. -/
def peekXString (cfg : Cfg) (bytes : Bytes) : Except Err HeaderInfo := (peekX cfg (IStream.ofBytes bytes)).1

/-- `npy::load<tensor<T>>(in)` for each type in turn, on a stream that throws -/
def loadAllX (cfg : Cfg) : List SeqType → IM (List SeqTensor)
  | [] => pure []
  | .fixed t :: l => do
    let x ← loadX cfg (fixedOpsX t)
    let xs ← loadAllX cfg l
    pure (.fixed t x :: xs)
  | .wide :: l => do
    let x ← loadX cfg wideOpsX
    let xs ← loadAllX cfg l
    pure (.wide x :: xs)

/-- **C81**, loading, for every stream and element type of the library. If `load` would leave failbit set, the throwing
stream throws; if not, the outcome and the stream are the same. -/
theorem C81_load (cfg : Cfg) {α : Type} {ops : ElemOpsX α} (h : StdOps ops) (s : IStream) (hs : s.fail = false) :
    ((load cfg ops.toElemOps s).2.fail = true → (loadX cfg ops s).1 = .error ioFailure) ∧
    ((load cfg ops.toElemOps s).2.fail = false → loadX cfg ops s = load cfg ops.toElemOps s) :=
  ⟨(raises_load h cfg).raise s hs, (raises_load h cfg).same s hs⟩

/-- **C81**, `peek`. -/
theorem C81_peek (cfg : Cfg) (s : IStream) (hs : s.fail = false) :
    ((peek cfg s).2.fail = true → (peekX cfg s).1 = .error ioFailure) ∧
    ((peek cfg s).2.fail = false → peekX cfg s = peek cfg s) :=
  ⟨(raises_header cfg).raise s hs, (raises_header cfg).same s hs⟩

/-- What a throwing call returns it also returns, silently, when more data follow. -/
theorem CutRaises.extend {α : Type} {x y : IM α} (h : CutRaises y) (hr : Raises x y) {bytes : Bytes} {v : α}
    (hv : (y (IStream.ofBytes bytes)).1 = .ok v) (extra : Bytes) : (x (IStream.ofBytes (bytes ++ extra))).1 = .ok v := by
  have h1 := h (IStream.ofBytes (bytes ++ extra)) bytes bytes extra rfl rfl
  have e1 : ({ IStream.ofBytes (bytes ++ extra) with all := bytes, rest := bytes } : IStream) = IStream.ofBytes bytes := rfl
  rw [e1, hv] at h1
  rcases h1 with h1 | ⟨h1, -, -⟩
  · cases h1
  · cases hf : (x (IStream.ofBytes (bytes ++ extra))).2.fail with
    | true => rw [hr.raise _ rfl hf] at h1; cases h1
    | false => rw [← hr.same _ rfl hf]; exact h1.symm

/-- **C81**, nothing is made up. For every contents of the stream: a tensor that `load` returns from a stream that throws is
the one `load` returns, from an ordinary stream, whatever data follow: it does not depend on data that are not there. The
same for `peek`. -/
theorem C81_complete (cfg : Cfg) {α : Type} {ops : ElemOpsX α} (h : StdOps ops) (bytes : Bytes) :
    (∀ x, loadXString cfg ops bytes = .ok x → ∀ extra, loadFromString cfg ops.toElemOps (bytes ++ extra) = .ok x) ∧
    (∀ i, peekXString cfg bytes = .ok i → ∀ extra, peekString cfg (bytes ++ extra) = .ok i) :=
  ⟨fun _ hx extra => (cut_load h cfg).extend (raises_load h cfg) hx extra,
   fun _ hi extra => (cut_header cfg).extend (raises_header cfg) hi extra⟩

theorem raises_loadAll (cfg : Cfg) : ∀ l, Raises (loadAll cfg l) (loadAllX cfg l)
  | [] => Raises.pure _
  | .fixed t :: l => (raises_load (StdOps.fixed t) cfg).bind fun _ => (raises_loadAll cfg l).bind fun _ => Raises.pure _
  | .wide :: l => (raises_load StdOps.wide cfg).bind fun _ => (raises_loadAll cfg l).bind fun _ => Raises.pure _

theorem cut_loadAll (cfg : Cfg) : ∀ l, CutRaises (loadAllX cfg l)
  | [] => CutRaises.pure _
  | .fixed t :: l => (cut_load (StdOps.fixed t) cfg).bind fun _ => (cut_loadAll cfg l).bind fun _ => CutRaises.pure _
  | .wide :: l => (cut_load StdOps.wide cfg).bind fun _ => (cut_loadAll cfg l).bind fun _ => CutRaises.pure _

/-- A throwing call that reads some data to their end throws when any of them are missing. -/
theorem CutRaises.truncated {α : Type} {y : IM α} (h : CutRaises y) {bytes : Bytes} {v : α} {s' : IStream}
    (hv : y (IStream.ofBytes bytes) = (.ok v, s')) (hs : s'.rest = []) (k : Nat) (hk : k < bytes.length) :
    (y (IStream.ofBytes (bytes.take k))).1 = .error ioFailure := by
  rcases h (IStream.ofBytes bytes) (bytes.take k) (bytes.take k) (bytes.drop k) rfl (List.take_append_drop k bytes).symm with
    h1 | ⟨-, -, h3⟩
  · exact h1
  · rw [hv] at h3
    simp only [] at h3
    have h4 := congrArg IStream.rest h3
    rw [hs] at h4
    simp only [] at h4
    have h5 := congrArg List.length h4
    rw [List.length_append, List.length_drop, List.length_nil] at h5
    omega

/-- **C81**, truncated data. For every sequence of tensors, of any mixture of element types: what was saved to one stream is
loaded back from a stream that throws, and if any number of bytes is missing at the end, some load throws
`std::ios_base::failure`. -/
theorem C81_truncated (cfg : Cfg) (l : List (SeqTensor × Endian)) (h : ∀ p ∈ l, Savable cfg p) :
    ∃ o, saveAll cfg l OStream.empty = .ok o ∧
      (∀ extra, (loadAllX cfg (l.map fun p => p.1.type) (IStream.ofBytes (o.buf ++ extra))).1 = .ok (l.map (·.1))) ∧
      ∀ k < o.buf.length, (loadAllX cfg (l.map fun p => p.1.type) (IStream.ofBytes (o.buf.take k))).1 = .error ioFailure := by
  obtain ⟨o, h1, h2⟩ := C19_sequences cfg l h
  have h3 : ∀ extra, loadAllX cfg (l.map fun p => p.1.type) (IStream.ofBytes (o.buf ++ extra)) =
      (.ok (l.map (·.1)), { IStream.ofBytes (o.buf ++ extra) with rest := extra }) := fun extra => by
    rw [(raises_loadAll cfg _).same _ rfl (by rw [h2 extra]; rfl), h2 extra]
  refine ⟨o, h1, fun extra => by rw [h3 extra], fun k hk => ?_⟩
  have h4 := h3 []
  rw [List.append_nil] at h4
  exact (cut_loadAll cfg _).truncated h4 rfl k hk

/-- **C81**, saving. For every tensor of an element type of the library, every device (one that takes only so many bytes, or any
number), and every size and behaviour of the stream's buffer: `save` followed by `flush` returns normally exactly when the
whole file has reached the device; otherwise it throws `std::ios_base::failure` and the device has the bytes it takes. -/
theorem C81_save (cfg : Cfg) {α : Type} {ops : ElemOpsX α} (h : StdOps ops) (x : Tensor α) (e : Endian) {f : Bytes}
    (hf : saveToString cfg ops.toElemOps x e = .ok f) (keep : Nat → Nat) (cap : Option Nat) :
    ∃ b, ((∀ c, cap = some c → f.length ≤ c) →
        saveFlushX cfg ops x e ⟨{ OStream.empty with cap := cap }, [], 0, keep⟩ = (.ok (), b) ∧ b.dev.buf = f) ∧
      (∀ c, cap = some c → c < f.length →
        saveFlushX cfg ops x e ⟨{ OStream.empty with cap := cap }, [], 0, keep⟩ = (.error ioFailure, b) ∧
        b.dev.buf = f.take c) := by
  have h1 := saveFlush_cases h cfg x e { OStream.empty with cap := cap } keep ⟨rfl, rfl, rfl⟩
  unfold saveToString at hf
  match hsv : save cfg ops.toElemOps x e OStream.empty with
  | .error err => rw [hsv] at hf; simp [Except.map] at hf
  | .ok o =>
    rw [hsv] at hf h1
    simp only [Except.map, Except.ok.injEq] at hf
    subst hf
    simp only [] at h1
    rcases h1 with ⟨b', g1, g2, g3⟩ | ⟨c, b', g1, g2, g3, g4⟩
    · refine ⟨b', fun _ => ⟨g1, g2⟩, fun c hc hlt => ?_⟩
      have := g3 c hc
      omega
    · refine ⟨b', fun hall => ?_, fun c' hc' _ => ?_⟩
      · have := hall c g2
        omega
      · rw [g2] at hc'
        cases hc'
        exact ⟨g1, g4⟩

/-- **C81** for `save` without the flush is false: a stream that keeps everything back returns normally, although its device
takes 10 of the 140 bytes; they would be lost when the stream is destroyed. -/
theorem C81_save_false : ∃ b, saveX exCfg (fixedOpsX .int16) exTensor .little
      ⟨{ OStream.empty with cap := some 10 }, [], 0, fun _ => 1000⟩ = (.ok (), b) ∧ b.dev.buf = [] ∧ b.pend.length = 140 := by
  have h1 : (saveX exCfg (fixedOpsX .int16) exTensor .little ⟨{ OStream.empty with cap := some 10 }, [], 0, fun _ => 1000⟩).1.toOption =
    some () := by decide +kernel
  have h2 : (saveX exCfg (fixedOpsX .int16) exTensor .little ⟨{ OStream.empty with cap := some 10 }, [], 0, fun _ => 1000⟩).2.dev.buf =
    [] := by decide +kernel
  have h3 : (saveX exCfg (fixedOpsX .int16) exTensor .little
      ⟨{ OStream.empty with cap := some 10 }, [], 0, fun _ => 1000⟩).2.pend.length = 140 := by decide +kernel
  revert h1 h2 h3
  generalize (saveX exCfg (fixedOpsX .int16) exTensor .little ⟨{ OStream.empty with cap := some 10 }, [], 0, fun _ => 1000⟩) = r
  intro h1 h2 h3
  obtain ⟨_ | _, b⟩ := r
  · cases h1
  · exact ⟨b, rfl, h2, h3⟩

/-! ### Concrete cases -/

/-- Two tensors, an `int16` one and one of strings, in one stream. -/
def exSequence : List (SeqTensor × Endian) := [(.fixed .int16 exTensor, .big), (.wide exWide, .native)]

theorem exSequence_ok : ∀ p ∈ exSequence, Savable exCfg p := by
  intro p hp
  simp only [exSequence, List.mem_cons, List.not_mem_nil, or_false] at hp
  rcases hp with rfl | rfl
  · exact ⟨by decide, exTensor_ok, exTensor_elems,
      headerDict_length_le (by unfold Spec.descr; rw [← decimal_eq_spec]; decide)⟩
  · exact ⟨Tensor.ok_of_strides (by decide) (by decide) (by decide) rfl (by decide), by unfold Spec.IsWide; decide,
      by decide, by decide, headerDict_length_le (by unfold Spec.descrU; rw [← decimal_eq_spec]; decide)⟩

/-- The last byte of the second file is missing; and so are the last 100. -/
example : ∃ o, saveAll exCfg exSequence OStream.empty = .ok o ∧
    (loadAllX exCfg [.fixed .int16, .wide] (IStream.ofBytes o.buf)).1 = .ok [.fixed .int16 exTensor, .wide exWide] ∧
    (0 < o.buf.length → (loadAllX exCfg [.fixed .int16, .wide] (IStream.ofBytes (o.buf.take (o.buf.length - 1)))).1 = .error ioFailure) ∧
    (0 < o.buf.length → (loadAllX exCfg [.fixed .int16, .wide] (IStream.ofBytes (o.buf.take (o.buf.length - 100)))).1 =
      .error ioFailure) := by
  obtain ⟨o, h1, h2, h3⟩ := C81_truncated exCfg exSequence exSequence_ok
  refine ⟨o, h1, ?_, fun h => h3 _ (by omega), fun h => h3 _ (by omega)⟩
  have := h2 []
  rw [List.append_nil] at this
  exact this

/-- C13's counterexample, on a stream that throws: the silent load returns a tensor, the throwing one does not. -/
example : ∃ f, saveToString exCfg (fixedOps .int16) exTensor .big = .ok f ∧
    (loadFromString exCfg (fixedOps .int16) (f.take 132)).toOption.isSome = true ∧
    loadXString exCfg (fixedOpsX .int16) (f.take 132) = .error ioFailure :=
  ⟨_, rfl, by decide +kernel, by
    refine (C81_load exCfg (StdOps.fixed .int16) _ rfl).1 ?_
    decide +kernel⟩

/-- A device of 139 bytes for a file of 140, a buffer of 16 bytes; then one of 140 bytes. -/
example : ∃ b1 b2, saveFlushX exCfg (fixedOpsX .int16) exTensor .little
      ⟨{ OStream.empty with cap := some 139 }, [], 0, fun _ => 16⟩ = (.error ioFailure, b1) ∧ b1.dev.buf.length = 139 ∧
    saveFlushX exCfg (fixedOpsX .int16) exTensor .little
      ⟨{ OStream.empty with cap := some 140 }, [], 0, fun _ => 16⟩ = (.ok (), b2) ∧ b2.dev.buf.length = 140 := by
  obtain ⟨f, h, -⟩ := storable_roundtrip (exPuts_storable (b!"x", ⟨Elem, fixedOps .int16, exTensor⟩) (by simp [exPuts]))
  have hf : f = (saveToString exCfg (fixedOps .int16) exTensor .little).toOption.getD [] := by
    have : saveToString exCfg (fixedOps .int16) exTensor .little = .ok f := h
    rw [this]; rfl
  have hl : f.length = 140 := by rw [hf]; decide +kernel
  obtain ⟨b1, -, h1⟩ := C81_save exCfg (StdOps.fixed .int16) exTensor .little h (fun _ => 16) (some 139)
  obtain ⟨b2, h2, -⟩ := C81_save exCfg (StdOps.fixed .int16) exTensor .little h (fun _ => 16) (some 140)
  obtain ⟨a1, a2⟩ := h1 139 rfl (by omega)
  obtain ⟨a3, a4⟩ := h2 (fun c hc => by cases hc; omega)
  exact ⟨b1, b2, a1, by rw [a2, List.length_take]; omega, a3, by rw [a4]; exact hl⟩

end Npy
