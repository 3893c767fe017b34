import Verif.Props.Deflate
/-!
# C73: the compressor stays within its memory

In the model of the compressor (`Model/DeflateHuff`, `Model/Deflate`) each access to an array compares the index with the size of
the array and gives the error `.ub` if it is outside; each `MZ_ASSERT` gives `.abort` if it fails; a loop that does not end gives
`.diverge`. The theorems say that none of this happens, whatever the data.
-/

namespace Npy
open Spec Spec.Deflate

/-- **C73**. Compressing any data under 4 GiB succeeds: no access outside of an array, no failed assertion, no endless loop and no
exception; whatever the memory of the compressor held before. -/
theorem C73_compress (dbg : Bool) (j : Junk) (b : Bytes) (hb : b.length < 2 ^ 32) (fuel : Nat) (hf : b.length + 260 ≤ fuel) :
    (∃ z, npyDeflate false dbg j fuel b = .ok z) ∧ ∀ e, npyDeflate false dbg j fuel b ≠ .error e := by
  obtain ⟨z, h, -⟩ := C58_standard dbg j b hb fuel hf
  exact ⟨⟨z, h⟩, fun e he => by rw [h] at he; cases he⟩

/-- Three million bytes that look random to the compressor, with memory full of ones. -/
example : npyDeflate false false ⟨fun _ => 255, fun _ => 65535, 255⟩ 4000000
    ((List.range 3000000).map fun i => UInt8.ofNat (i * i * i / 7)) ≠ .error .ub :=
  (C73_compress _ _ _ (by rw [List.length_map, List.length_range]; norm_num) _
    (by rw [List.length_map, List.length_range]; norm_num)).2 _

/-- One call on a writer. -/
theorem wrCall_outcome (cfg : Cfg) (j : Junk) (n : Nat) (hn : 2 ^ 36 ≤ n) (w : Writer) (c : WrCall)
    (hle : w.method = DEFLATED → cfg.nativeBig = false)
    (hc : ∀ t name, c = .write t name → ∀ f, saveToString cfg t.ops t.x w.endianness = .ok f → f.length < 2 ^ 32) (er : Err)
    (h : (c.run cfg (miniz cfg j n) w).1 = .error er) :
    er = .throw (.runtimeError .streamClosed) ∨ er = .throw (.invalidArgument .unsupportedCompression) ∨
      ∃ t name, c = .write t name ∧ saveToString cfg t.ops t.x w.endianness = .error er := by
  cases c with
  | close =>
    change (Writer.close w).1 = _ at h
    unfold Writer.close at h
    dsimp only at h
    split at h <;> cases h
  | write t name =>
    change (Writer.write _ _ _ _ _ _).1 = _ at h
    unfold Writer.write at h
    dsimp only at h
    by_cases hcl : w.closed = true
    · rw [if_pos hcl] at h
      cases h
      exact .inl rfl
    · rw [if_neg hcl] at h
      match hs : save cfg t.ops t.x w.endianness OStream.empty with
      | .error e =>
        rw [hs] at h
        cases h
        exact .inr (.inr ⟨t, name, rfl, by unfold saveToString; rw [hs]; rfl⟩)
      | .ok out =>
        rw [hs] at h
        have hlen : out.buf.length < 2 ^ 32 := hc t name rfl _ (by unfold saveToString; rw [hs]; rfl)
        obtain ⟨z, hz, -⟩ := C58_standard (!cfg.ndebug) j out.buf hlen n (by omega)
        simp only [Writer.writeFile, Npy.writeFile, if_neg hcl] at h
        by_cases h1 : w.method = STORED
        · simp [h1] at h
        · by_cases h2 : w.method = DEFLATED
          · have hz' : (miniz cfg j n).deflate out.buf = .ok z := by
              simp only [miniz, hle h2]
              exact hz
            simp [h2, STORED, DEFLATED, hz'] at h
          · simp only [if_neg h1, if_neg h2] at h
            cases h
            exact .inr (.inl rfl)

/-- **C73**, archives. Over any sequence of calls on a writer (any method, any state), if every NPY file is under 4 GiB, a call
either succeeds or has one of three errors: the writer is closed, the method is neither stored nor deflated, or `save` itself
fails on the tensor with that error. In particular compression never is undefined. -/
theorem C73_archive (cfg : Cfg) (j : Junk) (n : Nat) (hn : 2 ^ 36 ≤ n) (calls : List WrCall) (w : Writer)
    (hle : w.method = DEFLATED → cfg.nativeBig = false)
    (hfiles : ∀ t name, .write t name ∈ calls → ∀ f, saveToString cfg t.ops t.x w.endianness = .ok f → f.length < 2 ^ 32)
    (c : WrCall) (er : Err) (h : (c, .error er) ∈ Writer.trace cfg (miniz cfg j n) w calls) :
    er = .throw (.runtimeError .streamClosed) ∨ er = .throw (.invalidArgument .unsupportedCompression) ∨
      ∃ t name, c = .write t name ∧ saveToString cfg t.ops t.x w.endianness = .error er := by
  induction calls generalizing w with
  | nil => cases h
  | cons c' calls ih =>
    unfold Writer.trace at h
    rcases List.mem_cons.mp h with h | h
    · rw [Prod.mk.injEq] at h
      obtain ⟨h1, h2⟩ := h
      rw [h1]
      exact wrCall_outcome cfg j n hn w c' hle (fun t name e => hfiles t name (by rw [e]; exact List.mem_cons_self)) er h2.symm
    · have := ih (c'.run cfg (miniz cfg j n) w).2 (by rw [wrCall_method]; exact hle) (fun t name hm => by
        rw [wrCall_endian]
        exact hfiles t name (List.mem_cons_of_mem _ hm)) h
      rw [wrCall_endian] at this
      exact this

/-- Two writes, one of wide strings, and a write after `close()`: only that one fails, as it should. -/
example (j : Junk) (c : WrCall) (er : Err) (h : (c, .error er) ∈ Writer.trace exCfg (miniz exCfg j (2 ^ 36))
      (Writer.newString DEFLATED .little)
      [.write ⟨WStr, wideOps, exWide⟩ b!"y", .write ⟨Elem, fixedOps .float64, exTensor2⟩ b!"x", .close,
        .write ⟨WStr, wideOps, exWide⟩ b!"y"]) :
    er = .throw (.runtimeError .streamClosed) ∨ er = .throw (.invalidArgument .unsupportedCompression) := by
  have key : ∀ (r : Except Err Bytes) f, r = .ok f → r.toOption.getD [] = f := by rintro _ _ rfl; rfl
  have bad : ∀ (r : Except Err Bytes), r.toOption.isSome = true → r ≠ .error er := by rintro _ h rfl; simp [Except.toOption] at h
  rcases C73_archive exCfg j (2 ^ 36) le_rfl _ _ (fun _ => rfl) (fun t name ht f hf => by
      rw [← key _ _ hf]
      simp only [List.mem_cons, List.not_mem_nil, or_false, reduceCtorEq, false_or, WrCall.write.injEq] at ht
      rcases ht with ⟨rfl, -⟩ | ⟨rfl, -⟩ | ⟨rfl, -⟩ <;> decide +kernel) c er h with h1 | h1 | ⟨t, name, h1, h2⟩
  · exact .inl h1
  · exact .inr h1
  · exfalso
    have hmem : ∀ (cfg : Cfg) (co : Codec) (l : List WrCall) (w : Writer) p, p ∈ Writer.trace cfg co w l → p.1 ∈ l := by
      intro cfg co l
      induction l with
      | nil => intro w p hp; cases hp
      | cons a l ih =>
        intro w p hp
        unfold Writer.trace at hp
        rcases List.mem_cons.mp hp with rfl | hp
        · exact List.mem_cons_self
        · exact List.mem_cons_of_mem _ (ih _ _ hp)
    have := hmem _ _ _ _ _ h
    rw [h1] at this
    simp only [List.mem_cons, List.not_mem_nil, or_false, reduceCtorEq, false_or, WrCall.write.injEq] at this
    rcases this with ⟨rfl, -⟩ | ⟨rfl, -⟩ | ⟨rfl, -⟩
    all_goals exact bad _ (by decide +kernel) h2

end Npy
