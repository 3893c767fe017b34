import Verif.Proofs.Crash
import Verif.Props.Accept
import Verif.Props.Fs
import Verif.Props.Damage
/-!
# C74: a process that ends while it saves
-/

namespace Npy
open Spec

/-! ### One tensor -/

theorem descr_mem {t : DType} (ht : t ≠ .unicode) {big : Bool} {b : Byte} (h : b ∈ Spec.descr t big) : b ≠ 100 ∧ b ≠ 125 := by
  unfold Spec.descr at h
  simp only [List.mem_append] at h
  rcases h with (h | h) | h
  · split at h
    · simp at h; subst h; decide
    · split at h <;> (simp at h; subst h; decide)
  · cases t <;> simp [Spec.kind] at h <;> subst h <;> decide
  · have := decimal_digit h
    exact ⟨fun h => by subst h; revert this; decide, fun h => by subst h; revert this; decide⟩

theorem descrU_mem {n : Nat} {big : Bool} {b : Byte} (h : b ∈ Spec.descrU n big) : b ≠ 100 ∧ b ≠ 125 := by
  unfold Spec.descrU at h
  simp only [List.mem_append] at h
  rcases h with (h | h) | h
  · split at h <;> (simp at h; subst h; decide)
  · simp at h; subst h; decide
  · have := decimal_digit h
    exact ⟨fun h => by subst h; revert this; decide, fun h => by subst h; revert this; decide⟩

/-- Bytes of an element in a file. -/
theorem storable_file {cfg : Cfg} {e : Endian} {t : AnyTensor} (h : Storable cfg e t) :
    ∃ d data info size, saveToString cfg t.ops t.x e = .ok (headerBytes d t.x.fortranOrder t.x.shape ++ data) ∧
      (100 : Byte) ∉ d ∧ (39 : Byte) ∉ d ∧ (125 : Byte) ∉ d ∧ d ≠ [] ∧ (Spec.headerDict d t.x.fortranOrder t.x.shape).length ≤ 245 ∧
      (∀ padding, parseHeader cfg (Spec.headerDict d t.x.fortranOrder t.x.shape ++ padding) = .ok info) ∧
      info.shape = t.x.shape ∧ info.fortranOrder = some t.x.fortranOrder ∧ info.dtype = some t.ops.dtype ∧
      t.x.values.length = t.x.shape.prod % 2 ^ 64 ∧ t.x.shape.prod % 2 ^ 64 * t.ops.sizeof < 2 ^ 63 ∧ LibOps t.ops ∧
      data.length = t.x.values.length * size ∧
      ∀ j ≤ data.length, ∃ y, loadFromString cfg t.ops (headerBytes d t.x.fortranOrder t.x.shape ++ data.take j) = .ok y ∧
        ∀ i, (i + 1) * size ≤ j → y.values[i]? = t.x.values[i]? := by
  cases h with
  | fixed dt ht x hx hv hlen =>
    obtain ⟨header, data, h1, h2, h3⟩ := C13_truncated cfg dt ht x hx hv e hlen
    have hs := saveToString_fixed (cfg := cfg) ht hv e
    rw [h1] at hs
    simp only [savedFixed, Except.ok.injEq] at hs
    have hdl : (x.values.flatMap (fixedBytes cfg dt e)).length = x.values.length * Spec.itemSize dt := by
      rw [itemSize_eq dt ht]
      exact flatMap_length _ _ _ fun v h => fixedBytes_length ((validElem_iff dt ht v).2 (hv v h))
    obtain ⟨rfl, rfl⟩ := List.append_inj' hs (by rw [h2, hdl])
    refine ⟨_, _, _, _, h1, fun hm => (descr_mem ht hm).1 rfl, descr_no_quote dt _, fun hm => (descr_mem ht hm).2 rfl, ?_, hlen,
      fun padding => C09_numpy_header cfg dt ht _ _ _ hx.extents (Nat.lt_of_le_of_lt hlen (by decide)) padding, rfl, rfl, rfl, hx.size, ?_, .fixed dt ht, h2, ?_⟩
    · unfold Spec.descr
      intro hc
      have := congrArg List.length hc
      cases dt <;> simp [Spec.kind] at this ht
    · rw [← hx.size]
      have := hx.fits
      rw [itemSize_eq dt ht] at this
      exact this
    · intro j hj
      obtain ⟨y, k1, _, _, _, _, k2, _⟩ := h3 j hj
      exact ⟨y, k1, k2⟩
  | wide x hx hw h0 hmax hlen =>
    obtain ⟨header, data, h1, h2, h3⟩ := C13_truncated_unicode cfg x hx hw h0 e hmax hlen
    have hs := saveToString_wide (cfg := cfg) x e
    rw [h1] at hs
    simp only [savedWide, Except.ok.injEq] at hs
    have hdl : (x.values.flatMap (wideBytes cfg e (maxLength x.values))).length = x.values.length * (4 * Spec.longest x.values) := by
      rw [← maxLength_eq, Nat.mul_comm 4]
      exact flatMap_length _ _ _ fun v hx => wideBytes_length cfg e (le_maxLength hx)
    obtain ⟨rfl, rfl⟩ := List.append_inj' hs (by rw [h2, hdl])
    rw [maxLength_eq] at h1 h2 h3
    refine ⟨_, _, ⟨some .unicode, some (if Spec.isBig cfg e then .big else .little), some x.fortranOrder, x.shape,
      some (Spec.longest x.values)⟩, _, h1, fun hm => (descrU_mem hm).1 rfl, descrU_no_quote _ _, fun hm => (descrU_mem hm).2 rfl, ?_, hlen,
      fun padding => ?_, rfl, rfl, rfl, hx.size, ?_, .wide, h2, ?_⟩
    · unfold Spec.descrU
      intro hc
      have := congrArg List.length hc
      simp at this
    · obtain ⟨items, k1, k2⟩ := headerDict_items (Spec.descrU (Spec.longest x.values) (Spec.isBig cfg e)) x.fortranOrder x.shape
      rw [k2] at hlen ⊢
      exact C09_dictionary_layouts_unicode cfg _ hmax _ _ _ hx.extents _ (.refl _) items k1
        (by simp only [List.length_append] at hlen; omega) padding
    · rw [← hx.size]
      exact hx.fits
    · intro j hj
      obtain ⟨y, k1, _, _, _, _, k2, _⟩ := h3 j hj
      exact ⟨y, k1, k2⟩

/-- The file system after a crash differs in one file only. -/
theorem SaveCrash.others {α : Type} {cfg : Cfg} {ops : ElemOps α} {x : Tensor α} {e : Endian} {p : Bytes} {fs fs' : Fs}
    (h : SaveCrash cfg ops x e p fs fs') : (∀ q, q ≠ p → fs'.file q = fs.file q) ∧ fs'.readable = fs.readable := by
  cases h with
  | unopened => exact ⟨fun q _ => rfl, rfl⟩
  | opened => exact ⟨fun q hq => by simp [Fs.put, hq], rfl⟩
  | writing => exact ⟨fun q hq => by simp [Fs.put, hq], rfl⟩

/-- **C74** The process ends at any point of `save(path, …)`, for any tensor an NPY file can hold and any state of the file system.
Other files are as before. The file itself either is as before, or holds the first `k` bytes of the new file. Then:
loading it is undefined behaviour if there are less than 10 bytes; it never succeeds, and throws in release builds, if they end
before the closing brace of the header; and otherwise it succeeds, with the shape and order of the tensor being saved, and with all the
elements whose bytes are there (the elements begin at the position the header says). -/
theorem C74_save (cfg : Cfg) (e : Endian) (t : AnyTensor) (ht : Storable cfg e t) (fs fs' : Fs) (p : Bytes)
    (hr : fs.readable p = true) (hroom : fs.room = none) (hc : SaveCrash cfg t.ops t.x e p fs fs') :
    (∀ q, q ≠ p → fs'.file q = fs.file q) ∧
    (fs' = fs ∨ ∃ bytes k, saveToString cfg t.ops t.x e = .ok bytes ∧ fs'.file p = some (bytes.take k) ∧
      (k < 10 → (loadPath cfg t.ops p fs').1 = .error .ub) ∧
      (10 ≤ k → 125 ∉ bytes.take k → (∀ y, (loadPath cfg t.ops p fs').1 ≠ .ok y) ∧
        (cfg.ndebug = true → ∃ err, (loadPath cfg t.ops p fs').1 = .error (.throw err))) ∧
      (125 ∈ bytes.take k → ∃ y, (loadPath cfg t.ops p fs').1 = .ok y ∧ y.shape = t.x.shape ∧ y.fortranOrder = t.x.fortranOrder ∧
        y.values.length = t.x.values.length ∧
        ∃ lo size, bytes[8]? = some lo ∧ bytes.length = 10 + lo.toNat + t.x.values.length * size ∧
          ∀ i, 10 + lo.toNat + (i + 1) * size ≤ k → y.values[i]? = t.x.values[i]?)) := by
  refine ⟨hc.others.1, ?_⟩
  have hrp : fs'.readable p = true := by rw [hc.others.2]; exact hr
  obtain ⟨d, data, info, size, h1, h2, h3, h4, h5, h6, h7, h8, h9, h10, h11, h12, ho, h13, h14⟩ := storable_file ht
  obtain ⟨H, hH⟩ : ∃ H, H = headerBytes d t.x.fortranOrder t.x.shape := ⟨_, rfl⟩
  obtain ⟨f, hf⟩ : ∃ f, f = t.x.fortranOrder := ⟨_, rfl⟩
  obtain ⟨ns, hns⟩ : ∃ ns, ns = t.x.shape := ⟨_, rfl⟩
  obtain ⟨bytes, hbytes⟩ : ∃ bytes, bytes = H ++ data := ⟨_, rfl⟩
  have main : ∀ k, fs'.file p = some (bytes.take k) →
      (k < 10 → (loadPath cfg t.ops p fs').1 = .error .ub) ∧
      (10 ≤ k → 125 ∉ bytes.take k → (∀ y, (loadPath cfg t.ops p fs').1 ≠ .ok y) ∧
        (cfg.ndebug = true → ∃ err, (loadPath cfg t.ops p fs').1 = .error (.throw err))) ∧
      (125 ∈ bytes.take k → ∃ y, (loadPath cfg t.ops p fs').1 = .ok y ∧ y.shape = t.x.shape ∧ y.fortranOrder = t.x.fortranOrder ∧
        y.values.length = t.x.values.length ∧
        ∃ lo size, bytes[8]? = some lo ∧ bytes.length = 10 + lo.toNat + t.x.values.length * size ∧
          ∀ i, 10 + lo.toNat + (i + 1) * size ≤ k → y.values[i]? = t.x.values[i]?) := by
    intro k hk
    have hl : (loadPath cfg t.ops p fs').1 = loadFromString cfg t.ops (bytes.take k) := by
      rw [(C53_like_streams cfg t.ops ho fs' p _ hk hrp).1]
    rw [hl]
    refine ⟨fun hlt => ?_, fun hge hb => ?_, fun hb => ?_⟩
    · refine load_bad cfg t.ops (short_peek cfg (by rw [List.length_take]; omega) ?_)
      have hb6 : ∃ r, bytes = MAGIC ++ r ∧ 4 ≤ r.length := by
        rw [hbytes, hH]
        exact ⟨_, rfl, by simp⟩
      obtain ⟨r, hb6, hr4⟩ := hb6
      rw [hb6]
      have hm6 : MAGIC.length = 6 := rfl
      rw [List.take_take, List.length_take, List.length_append, hm6, Nat.min_eq_left (show k ≤ 6 + r.length by omega)]
      by_cases hk6 : k ≤ 6
      · rw [Nat.min_eq_right hk6, List.take_append_of_le_length (by omega)]
      · rw [Nat.min_eq_left (by omega), List.take_left' hm6, List.take_of_length_le (by omega)]
    · rw [hbytes, hH] at hb ⊢
      obtain ⟨k1, k2⟩ := cut_refused cfg h2 h3 h4 h5 h6 data hge hb
      match hp : peekString cfg ((headerBytes d t.x.fortranOrder t.x.shape ++ data).take k) with
      | .ok info => exact absurd hp (k1 info)
      | .error er =>
        rw [load_bad cfg t.ops hp]
        refine ⟨fun y => by simp, fun hnd => ?_⟩
        obtain ⟨x, hx⟩ := k2 hnd
        rw [hp] at hx
        simp only [Except.error.injEq] at hx
        exact ⟨x, by rw [hx]⟩
    · have hpk : peekString cfg (bytes.take k) = .ok info := by
        rw [hbytes, hH] at hb ⊢
        exact cut_accepted cfg h4 h6 data hb h7
      obtain ⟨rest, hh⟩ := (C72_peek cfg _ info).1 hpk
      obtain ⟨y, hy⟩ := (load_run ho hh).2.2.2.2 (by rw [h9]; simp) (by rw [h8]; exact h12) h10
      have hl2 : load cfg t.ops (IStream.ofBytes (bytes.take k)) = (.ok y, (load cfg t.ops (IStream.ofBytes (bytes.take k))).2) :=
        Prod.ext hy rfl
      obtain ⟨info', s1, vals, j1, j2, j3, j4, -⟩ := load_inv hl2
      have e1 : info' = info := by
        have : peekString cfg (bytes.take k) = .ok info' := congrArg Prod.fst j1
        rw [hpk] at this
        simpa using this.symm
      subst e1
      have hlen := (C29_size_from_header cfg _ ho _ _ y hl2).1
      have e2 : y.shape = t.x.shape := by rw [← j3, h8]
      have e3 : y.fortranOrder = t.x.fortranOrder := by rw [h9] at j2; simpa using j2.symm
      obtain ⟨pad, n, m1, m2, m3, m4, m5⟩ := headerBytes_split h6
      refine ⟨y, hy, e2, e3, by rw [hlen, e2, h11], UInt8.ofNat n, size, ?_, ?_, ?_⟩
      · rw [hbytes, hH, m5]; rfl
      · rw [UInt8.toNat_ofNat_of_lt' (by show _ < 256; omega), hbytes, List.length_append, hH, m1, h13]
      · rw [UInt8.toNat_ofNat_of_lt' (by show _ < 256; omega)]
        intro i hi
        have hkH : 10 + n ≤ k := by omega
        have e4 : bytes.take k = H ++ data.take (min (k - H.length) data.length) := by
          rw [hbytes, List.take_append, List.take_of_length_le (by rw [hH, m1]; exact hkH), ← List.take_take]
          simp
        obtain ⟨y', q1, q2⟩ := h14 (min (k - H.length) data.length) (Nat.min_le_right _ _)
        rw [← hH, ← e4, hy] at q1
        simp only [Except.ok.injEq] at q1
        subst q1
        by_cases hi2 : (i + 1) * size ≤ data.length
        · exact q2 i (by rw [hH, m1]; omega)
        · have hi3 : t.x.values.length ≤ i := by
            by_contra hc2
            have : (i + 1) * size ≤ t.x.values.length * size := Nat.mul_le_mul_right _ (by omega)
            omega
          rw [List.getElem?_eq_none hi3, List.getElem?_eq_none (by rw [hlen, e2, ← h11]; exact hi3)]
  rw [← hH, ← hbytes] at h1
  have hsave : ∀ (ho : (fs.openOut p).1.isOpen = true) (out : OStream), save cfg t.ops t.x e (fs.openOut p).1 = .ok out → out.buf = bytes := by
    intro ho out hout
    have hw : fs.writable p = true := by
      unfold Fs.openOut at ho
      by_contra hw
      rw [if_neg hw] at ho
      simp at ho
    have : (fs.openOut p).1 = OStream.empty := by unfold Fs.openOut; rw [if_pos hw, hroom]; rfl
    rw [this] at hout
    unfold saveToString at h1
    rw [hout] at h1
    simpa [Except.map] using h1
  have hput : ∀ bs, (fs.put p bs).file p = some bs := fun bs => by simp [Fs.put]
  cases hc with
  | unopened => exact .inl rfl
  | opened => exact .inr ⟨bytes, 0, h1, by rw [hput]; simp, main 0 (by rw [hput]; simp)⟩
  | @writing out k hop hout =>
    have hk : (fs.put p (out.buf.take k)).file p = some (bytes.take k) := by rw [hput, hsave hop out hout]
    exact .inr ⟨bytes, k, h1, hk, main k hk⟩

/-! ### Archives -/

/-- **C74**, archives. The process ends at any point of the life of a file writer, after any of the `calls`. Other files are as before.
The file either is as before, or holds the first `k` bytes of the archive `final` that the same calls and the destructor leave when
nothing goes wrong. Opening it is undefined behaviour if there are less than 22 bytes, and throws `runtime_error` if the last 22
bytes do not begin with the signature of the end record. -/
theorem C74_archive (cfg : Cfg) (codec : Codec) (method : Nat) (e : Endian) (p : Bytes) (calls : List WrCall) (fs fs' : Fs)
    (hr : fs.readable p = true) (hroom : fs.room = none) (hc : ArchiveCrash cfg codec method e p calls fs fs') :
    (∀ q, q ≠ p → fs'.file q = fs.file q) ∧
    (fs' = fs ∨ ∃ final k, (npzWriteScope cfg codec method e p calls fs).2.file p = some final ∧
      fs'.file p = some (final.take k) ∧ k ≤ final.length ∧
      (k < 22 → (npzReadPath p fs').1 = .error .ub) ∧
      (22 ≤ k → (final.drop (k - 22)).take 4 ≠ [0x50, 0x4B, 5, 6] →
        (npzReadPath p fs').1 = .error (.throw (.runtimeError .badSignature)))) := by
  have hput : ∀ bs, (fs.put p bs).file p = some bs := fun bs => by simp [Fs.put]
  have hother : ∀ bs q, q ≠ p → (fs.put p bs).file q = fs.file q := fun bs q hq => by simp [Fs.put, hq]
  have hcap : (fs.openOut p).1.cap = none := by
    unfold Fs.openOut
    split
    · exact hroom
    · rfl
  have main : ∀ bs, (fs.openOut p).1.isOpen = true →
      bs <+: (Writer.destroy (Writer.after cfg codec (Writer.newFile (fs.openOut p).1 method e) calls)).2.output.buf →
      ∃ final k, (npzWriteScope cfg codec method e p calls fs).2.file p = some final ∧
      (fs.put p bs).file p = some (final.take k) ∧ k ≤ final.length ∧
      (k < 22 → (npzReadPath p (fs.put p bs)).1 = .error .ub) ∧
      (22 ≤ k → (final.drop (k - 22)).take 4 ≠ [0x50, 0x4B, 5, 6] →
        (npzReadPath p (fs.put p bs)).1 = .error (.throw (.runtimeError .badSignature))) := by
    intro bs hop hpre
    have hread : (npzReadPath p (fs.put p bs)).1 = Reader.open (IStream.ofFile bs) := by
      show Reader.open ((fs.put p bs).openIn p) = _
      rw [Fs.openIn_file (hput bs) hr]
    have hbs := List.prefix_iff_eq_take.1 hpre
    refine ⟨_, bs.length, ?_, by rw [hput, ← hbs], hpre.length_le, fun h => ?_, fun h hsig => ?_⟩
    · simp only [npzWriteScope, hop, if_true]
      simp [Fs.put]
    · rw [hread]
      exact C46_short bs h _ (.inr rfl)
    · rw [hread]
      refine C46_end_record bs h ?_ _ (.inr rfl)
      intro hx
      refine hsig ?_
      rw [← hx]
      obtain ⟨r, hr⟩ := hpre
      rw [← hr, List.drop_append_of_le_length (by omega), List.take_append_of_le_length]
      rw [List.length_drop]
      omega
  cases hc with
  | unopened => exact ⟨fun _ _ => rfl, .inl rfl⟩
  | writing done k hd hop =>
    refine ⟨hother _, .inr (main _ hop ?_)⟩
    obtain ⟨rest, rfl⟩ := hd
    refine (List.take_prefix _ _).trans ?_
    have e1 : Writer.after cfg codec (Writer.newFile (fs.openOut p).1 method e) (done ++ rest) =
        Writer.after cfg codec (Writer.after cfg codec (Writer.newFile (fs.openOut p).1 method e) done) rest := by
      simp [Writer.after, List.foldl_append]
    rw [e1]
    have hc1 := (grows_after cfg codec (Writer.newFile (fs.openOut p).1 method e) done hcap).2
    exact (((grows_after cfg codec _ rest).trans (grows_destroy _)) hc1).1
  | closing k hop => exact ⟨hother _, .inr (main _ hop (List.take_prefix _ _))⟩

/-- **C74**, archives: if the signature of the end record occurs in the complete archive only once, where it should be, then after a crash
either the file is as before, or the archive is complete, or it does not open. -/
theorem C74_archive_detected (cfg : Cfg) (codec : Codec) (method : Nat) (e : Endian) (p : Bytes) (calls : List WrCall) (fs fs' : Fs)
    (hr : fs.readable p = true) (hroom : fs.room = none) (hc : ArchiveCrash cfg codec method e p calls fs fs') (final : Bytes)
    (hf : (npzWriteScope cfg codec method e p calls fs).2.file p = some final)
    (honce : ∀ i, (final.drop i).take 4 = [0x50, 0x4B, 5, 6] → i + 22 = final.length) :
    fs' = fs ∨ fs'.file p = some final ∨ ∃ err, (npzReadPath p fs').1 = .error err := by
  rcases (C74_archive cfg codec method e p calls fs fs' hr hroom hc).2 with h | ⟨final', k, h1, h2, h3, h4, h5⟩
  · exact .inl h
  · right
    rw [h1] at hf
    simp only [Option.some.injEq] at hf
    subst hf
    by_cases hk : k < 22
    · exact .inr ⟨_, h4 hk⟩
    · by_cases hs : (final'.drop (k - 22)).take 4 = [0x50, 0x4B, 5, 6]
      · have := honce _ hs
        left
        rw [h2, List.take_of_length_le (by omega)]
      · exact .inr ⟨_, h5 (by omega) hs⟩

/-! ### What is false -/

/-- Another tensor of the same shape. -/
def exTurned : Tensor Elem := { exTensor with values := exTensor.values.reverse }

/-- The file system with the first tensor saved. -/
def exSaved : Fs := (savePath exCfg (fixedOps .int16) exTensor .little b!"/b" exFs).2

/-- **C74** is false: a crash need not be noticed, and what was saved before is lost. A file `/b` holding a tensor of six numbers is
saved again with other numbers, and the process ends after 130 of 140 bytes: the file loads, but holds neither the old numbers nor the
new ones. -/
theorem C74_save_false : ∃ (fs' : Fs) (y : Tensor Elem),
    (loadPath exCfg (fixedOps .int16) b!"/b" exSaved).1 = .ok exTensor ∧
    SaveCrash exCfg (fixedOps .int16) exTurned .little b!"/b" exSaved fs' ∧
    (loadPath exCfg (fixedOps .int16) b!"/b" fs').1 = .ok y ∧
    y.values = [[4660], [0], [0], [0], [0], [0]] ∧ y.values ≠ exTensor.values ∧ y.values ≠ exTurned.values := by
  obtain ⟨out, hout⟩ : ∃ out, save exCfg (fixedOps .int16) exTurned .little (exSaved.openOut b!"/b").1 = .ok out := ⟨_, rfl⟩
  have ho : out.buf = ((save exCfg (fixedOps .int16) exTurned .little (exSaved.openOut b!"/b").1).map (·.buf)).toOption.getD [] := by
    rw [hout]; rfl
  refine ⟨exSaved.put b!"/b" (out.buf.take 130), { exTensor with values := [[4660], [0], [0], [0], [0], [0]] }, by decide +kernel,
    .writing 130 rfl hout, ?_, rfl, by decide, by decide⟩
  rw [ho]
  decide +kernel

/-- The same from the theorem: the beginning of a saved file is refused before the closing brace at position 67, and loads from there. -/
example : ∃ bytes, saveToString exCfg (fixedOps .int16) exTensor .little = .ok bytes ∧
    125 ∉ bytes.take 67 ∧ 125 ∈ bytes.take 68 := by
  refine ⟨(saveToString exCfg (fixedOps .int16) exTensor .little).toOption.getD [], ?_, ?_, ?_⟩ <;> decide +kernel

/-- A tensor of 22 bytes that are an end record. -/
def exTrap : Tensor Elem :=
  { shape := [22], ravelStrides := [1], fortranOrder := false, dtype := .uint8,
    values := [[80], [75], [5], [6]] ++ List.replicate 18 [0] }

/-- **C74** is false for archives: a tensor whose values are the bytes of an end record is written, and the process ends before the archive
is closed: the file opens, as an archive without entries. -/
theorem C74_archive_false : ∃ fs' : Fs,
    ArchiveCrash exCfg noCodec STORED .little b!"/b" [.write ⟨Elem, fixedOps .uint8, exTrap⟩ b!"x"] exFs fs' ∧
    (npzReadPath b!"/b" fs').1.map (·.keys) = .ok [] ∧
    (npzReadPath b!"/b" (npzWriteScope exCfg noCodec STORED .little b!"/b" [.write ⟨Elem, fixedOps .uint8, exTrap⟩ b!"x"] exFs).2).1.map
      (·.keys) = .ok [b!"x.npy"] := by
  refine ⟨_, .writing [.write ⟨Elem, fixedOps .uint8, exTrap⟩ b!"x"] 1000 List.prefix_rfl rfl, ?_, ?_⟩ <;> decide +kernel

/-- For an ordinary tensor the signature occurs once, so that every crash is noticed. -/
example (fs' : Fs)
    (h : ArchiveCrash exCfg noCodec STORED .little b!"/a" [.write ⟨Elem, fixedOps .int16, exTensor⟩ b!"x"] exFs fs') :
    ∃ final, (npzWriteScope exCfg noCodec STORED .little b!"/a" [.write ⟨Elem, fixedOps .int16, exTensor⟩ b!"x"] exFs).2.file b!"/a" =
      some final ∧ (fs' = exFs ∨ fs'.file b!"/a" = some final ∨ ∃ err, (npzReadPath b!"/a" fs').1 = .error err) := by
  obtain ⟨final, hf⟩ : ∃ final, (npzWriteScope exCfg noCodec STORED .little b!"/a" [.write ⟨Elem, fixedOps .int16, exTensor⟩ b!"x"]
    exFs).2.file b!"/a" = some final := ⟨_, rfl⟩
  refine ⟨final, hf, C74_archive_detected _ _ _ _ _ _ _ _ rfl rfl h final hf ?_⟩
  have e : final = ((npzWriteScope exCfg noCodec STORED .little b!"/a" [.write ⟨Elem, fixedOps .int16, exTensor⟩ b!"x"]
    exFs).2.file b!"/a").getD [] := by rw [hf]; rfl
  have hl : final.length = 248 := by rw [e]; decide +kernel
  have key : ∀ i < 248, (final.drop i).take 4 = [0x50, 0x4B, 5, 6] → i + 22 = 248 := by rw [e]; decide +kernel
  intro i hi
  rw [hl]
  by_cases hlt : i < 248
  · exact key i hlt hi
  · rw [List.drop_of_length_le (by omega)] at hi
    simp at hi

end Npy
