import Verif.Model.Crash
import Verif.Proofs.CrashCut
import Verif.Proofs.AcceptFile
import Verif.Proofs.AcceptUb
import Verif.Proofs.Npy
import Verif.Props.Api
/-! What a file that ends early is read as. -/

namespace Npy
open Spec (FileParts EmptyDescr DictRead zeroPadded)

/-- The header of a saved file. -/
theorem headerBytes_split {d : Bytes} {f : Bool} {ns : List Nat} (hlen : (Spec.headerDict d f ns).length ≤ 245) :
    ∃ (pad : Bytes) (n : Nat), (headerBytes d f ns).length = 10 + n ∧ (Spec.headerDict d f ns ++ pad).length = n ∧ n < 256 ∧ n % 64 = 54 ∧
      headerBytes d f ns = ([0x93] ++ b!"NUMPY") ++ 1 :: 0 :: UInt8.ofNat n :: 0 :: (Spec.headerDict d f ns ++ pad) := by
  have hl := headerBytes_length d f ns
  have hlt := (paddedDictLength_lt_256 (dictionaryText d f ns).length).2 (by rw [dictionaryText_eq_spec]; exact hlen)
  have hmod := paddedDictLength_mod (dictionaryText d f ns).length
  obtain ⟨n, hn⟩ : ∃ n, n = paddedDictLength (dictionaryText d f ns).length := ⟨_, rfl⟩
  rw [← hn] at hl hlt hmod
  have hb : headerBytes d f ns = ([0x93] ++ b!"NUMPY") ++ 1 :: 0 :: UInt8.ofNat n :: 0 ::
      (Spec.headerDict d f ns ++ headerEnd (dictionaryText d f ns).length) := by
    unfold headerBytes staticHeader
    rw [← hn, dictionaryText_eq_spec]
    simp
  refine ⟨_, n, hl, ?_, hlt, by unfold STATIC_HEADER_LENGTH at hmod; omega, hb⟩
  rw [hb] at hl
  simp only [List.length_append, List.length_cons, List.length_nil, STATIC_HEADER_LENGTH] at hl ⊢
  omega

/-- What is read from a saved file that ends after `k ≥ 10` bytes. -/
theorem cut_peek (cfg : Cfg) {hb D pad data : Bytes} {n k : Nat} (hn : n < 256)
    (h : hb = ([0x93] ++ b!"NUMPY") ++ 1 :: 0 :: UInt8.ofNat n :: 0 :: (D ++ pad)) (hk : 10 ≤ k) :
    peekString cfg ((hb ++ data).take k) = parseHeader cfg (zeroPadded n ((D ++ pad ++ data).take (k - 10))) := by
  have hp : FileParts ((hb ++ data).take k) (zeroPadded n ((D ++ pad ++ data).take (k - 10)))
      (((D ++ pad ++ data).take (k - 10)).drop n) := by
    have e : (hb ++ data).take k = ([0x93] ++ b!"NUMPY") ++ 1 :: 0 :: UInt8.ofNat n :: 0 :: (D ++ pad ++ data).take (k - 10) := by
      obtain ⟨j, rfl⟩ : ∃ j, k = j + 10 := ⟨k - 10, by omega⟩
      rw [h]
      simp
    rw [e]
    refine FileParts.v1 (by decide) ?_
    rw [UInt8.toNat_ofNat_of_lt' (by show _ < 256; omega)]
    simp
  have hm : ((hb ++ data).take k).take 6 = [0x93] ++ b!"NUMPY" := by
    rw [List.take_take, Nat.min_eq_left (by omega), h]
    simp
  obtain ⟨s', _, _, h7, _⟩ := file_parts cfg hp (s := IStream.ofBytes ((hb ++ data).take k)) rfl
  have h8 := congrArg Prod.fst (h7 (.inr hm))
  exact h8

/-- A saved file that ends before the closing brace. -/
theorem cut_refused (cfg : Cfg) {d : Bytes} {f : Bool} {ns : List Nat} (h100 : (100 : Byte) ∉ d) (h39 : (39 : Byte) ∉ d)
    (h125 : (125 : Byte) ∉ d) (hne : d ≠ []) (hlen : (Spec.headerDict d f ns).length ≤ 245) (data : Bytes) {k : Nat}
    (hk : 10 ≤ k) (hb : (125 : Byte) ∉ (headerBytes d f ns ++ data).take k) :
    (∀ info, peekString cfg ((headerBytes d f ns ++ data).take k) ≠ .ok info) ∧
    (cfg.ndebug = true → ∃ x, peekString cfg ((headerBytes d f ns ++ data).take k) = .error (.throw x)) := by
  obtain ⟨pad, n, h1, h2, h3, h4, h5⟩ := headerBytes_split hlen
  rw [cut_peek cfg h3 h5 hk]
  have hkD : k - 10 < (Spec.headerDict d f ns).length := by
    by_contra hc
    refine hb ?_
    obtain ⟨j, rfl⟩ : ∃ j, k = j + 10 := ⟨k - 10, by omega⟩
    rw [h5]
    simp only [List.cons_append, List.nil_append, List.take_succ_cons, List.mem_cons, List.append_assoc]
    iterate 10 right
    rw [List.take_append, List.mem_append]
    left
    rw [List.take_of_length_le (by omega)]
    simp [Spec.headerDict]
  have e : zeroPadded n ((Spec.headerDict d f ns ++ pad ++ data).take (k - 10)) =
      (Spec.headerDict d f ns).take (k - 10) ++ List.replicate (n - (k - 10)) 0 := by
    rw [List.length_append] at h2
    unfold zeroPadded
    rw [List.append_assoc, List.take_append_of_le_length (by omega), List.take_take, Nat.min_eq_right (by omega), List.length_take,
      Nat.min_eq_left (by omega)]
  rw [e]
  have hD : ¬∃ strict fs, DictRead strict fs ((Spec.headerDict d f ns).take (k - 10) ++ List.replicate (n - (k - 10)) 0) := by
    rintro ⟨strict, fs, h⟩
    have := dictRead_brace h
    rw [List.mem_append] at this
    rcases this with h | h
    · exact headerDict_brace h125 f ns hkD h
    · exact absurd (List.mem_replicate.1 h).2 (by decide)
  have hok : ∀ info, parseHeader cfg ((Spec.headerDict d f ns).take (k - 10) ++ List.replicate (n - (k - 10)) 0) ≠ .ok info := by
    intro info hi
    rw [parse_accept] at hi
    obtain ⟨fs, h, -⟩ := hi
    exact hD ⟨_, _, h⟩
  refine ⟨hok, fun hnd => ?_⟩
  match hp : parseHeader cfg ((Spec.headerDict d f ns).take (k - 10) ++ List.replicate (n - (k - 10)) 0) with
  | .ok info => exact absurd hp (hok info)
  | .error er =>
    rcases parse_error hnd _ hp with rfl | ⟨x, rfl⟩
    · exact absurd ((parse_ub hnd _).1 hp) (cut_not_empty h100 h39 hne f ns _ _ (by rw [List.length_append] at h2; omega))
    · exact ⟨x, rfl⟩

/-- A saved file that ends behind the closing brace. -/
theorem cut_accepted (cfg : Cfg) {d : Bytes} {f : Bool} {ns : List Nat}
    (h125 : (125 : Byte) ∉ d) (hlen : (Spec.headerDict d f ns).length ≤ 245) (data : Bytes) {k : Nat}
    (hb : (125 : Byte) ∈ (headerBytes d f ns ++ data).take k) {info : HeaderInfo}
    (hp : ∀ padding, parseHeader cfg (Spec.headerDict d f ns ++ padding) = .ok info) :
    peekString cfg ((headerBytes d f ns ++ data).take k) = .ok info := by
  obtain ⟨pad, n, h1, h2, h3, h4, h5⟩ := headerBytes_split hlen
  have hn : UInt8.ofNat n ≠ 125 := by
    intro h
    have := congrArg UInt8.toNat h
    rw [UInt8.toNat_ofNat_of_lt' (by show _ < 256; omega)] at this
    have h6 : (125 : UInt8).toNat = 125 := rfl
    omega
  have hk : 10 ≤ k := by
    by_contra hc
    have h6 : (125 : Byte) ∈ (headerBytes d f ns ++ data).take 10 := by
      rw [show k = min k 10 by omega, ← List.take_take] at hb
      exact List.mem_of_mem_take hb
    rw [h5] at h6
    simp at h6
    exact hn h6.symm
  have hkD : (Spec.headerDict d f ns).length ≤ k - 10 := by
    by_contra hc
    obtain ⟨j, rfl⟩ : ∃ j, k = j + 10 := ⟨k - 10, by omega⟩
    rw [h5] at hb
    simp only [List.cons_append, List.nil_append, List.take_succ_cons, List.mem_cons, List.append_assoc] at hb
    rw [List.take_append_of_le_length (by omega)] at hb
    have := headerDict_brace h125 f ns (k := j) (by omega)
    simp [this] at hb
    exact hn hb.symm
  rw [cut_peek cfg h3 h5 hk]
  rw [List.length_append] at h2
  unfold zeroPadded
  have e : ∀ r : Bytes, ((Spec.headerDict d f ns ++ r).take (k - 10)).take n =
      Spec.headerDict d f ns ++ (r.take (k - 10 - (Spec.headerDict d f ns).length)).take (n - (Spec.headerDict d f ns).length) := by
    intro r
    rw [List.take_append, List.take_of_length_le hkD, List.take_append, List.take_of_length_le (by omega)]
  rw [List.append_assoc, e, List.append_assoc]
  exact hp _

/-- A file of less than ten bytes that begins as every file does. -/
theorem short_peek (cfg : Cfg) {bytes : Bytes} (h : bytes.length < 10) (hm : bytes.take 6 = MAGIC.take bytes.length) :
    peekString cfg bytes = .error .ub := by
  show (readNpyHeader cfg ((IStream.ofBytes bytes).withRest bytes)).1 = _
  unfold readNpyHeader
  rw [SM.bind_ok (IStream.read_short rfl bytes STATIC_HEADER_LENGTH h)]
  split
  · simp at h
  · rw [if_neg (fun hc => hc.2 hm)]
    rfl

/-! ### Archives: what was written stays -/

/-- An unlimited stream afterwards has the old bytes first. -/
def Grows (o o' : OStream) : Prop := o.cap = none → o.buf <+: o'.buf ∧ o'.cap = none

theorem Grows.refl (o : OStream) : Grows o o := fun h => ⟨List.prefix_rfl, h⟩
theorem Grows.trans {a b c : OStream} (h1 : Grows a b) (h2 : Grows b c) : Grows a c := fun h =>
  ⟨(h1 h).1.trans (h2 (h1 h).2).1, (h2 (h1 h).2).2⟩

theorem grows_write (o : OStream) (bs : Bytes) : Grows o (o.write bs) := by
  intro h
  unfold OStream.write
  split
  · exact ⟨List.prefix_rfl, h⟩
  · rw [h]
    exact ⟨List.prefix_append _ _, rfl⟩

theorem grows_closeArchive (entries : List FileEntry) (o : OStream) : Grows o (closeArchive entries o) := by
  unfold closeArchive
  refine Grows.trans ?_ (grows_write _ _)
  induction entries generalizing o with
  | nil => exact .refl o
  | cons x xs ih => exact (grows_write o _).trans (ih _)

theorem grows_close (w : Writer) : Grows w.output (Writer.close w).2.output := by
  simp only [Writer.close]
  split
  · exact .refl _
  · have := grows_closeArchive w.entries w.output
    cases w.isFile
    · exact this
    · exact fun h => this h

theorem grows_run (cfg : Cfg) (codec : Codec) (w : Writer) (c : WrCall) : Grows w.output (c.run cfg codec w).2.output := by
  cases c with
  | close => exact grows_close w
  | write t name =>
    simp only [WrCall.run, Writer.write]
    split
    · exact .refl _
    · split
      · exact .refl _
      · simp only [Writer.writeFile]
        split
        · exact .refl _
        · split
          · rename_i o es h
            unfold Npy.writeFile at h
            simp only [] at h
            split at h
            · simp at h
            · simp only [Except.ok.injEq, Prod.mk.injEq] at h
              rw [← h.1]
              exact (grows_write _ _).trans (grows_write _ _)
          · exact .refl _

theorem grows_after (cfg : Cfg) (codec : Codec) (w : Writer) (calls : List WrCall) :
    Grows w.output (Writer.after cfg codec w calls).output := by
  induction calls generalizing w with
  | nil => exact .refl _
  | cons c calls ih => exact (grows_run cfg codec w c).trans (ih _)

theorem grows_destroy (w : Writer) : Grows w.output (Writer.destroy w).2.output := by
  simp only [Writer.destroy]
  split
  · exact .refl _
  · exact grows_close w

end Npy
