import Verif.Props.Deflate
import Verif.Props.Damage
import Verif.Props.Device
/-!
# Peeking into archives (C65) and closed readers (C66)
-/

namespace Npy
open Spec (TensorOk IsElem IsWide Storable)

/-! ### C65: peek on archives -/

/-- What `peek` is to report of a stored tensor: its element type, the byte order chosen, its memory order, its shape, and
for strings the length of the longest one (0 for other types). -/
inductive Announces (cfg : Cfg) (e : Endian) : AnyTensor → HeaderInfo → Prop
  | fixed (t : DType) (x : Tensor Elem) : Announces cfg e ⟨Elem, fixedOps t, x⟩
      { dtype := some t, endianness := some (reported t (Spec.isBig cfg e)), fortranOrder := some x.fortranOrder,
        shape := x.shape, maxElementLength := some 0 }
  | wide (x : Tensor WStr) : Announces cfg e ⟨WStr, wideOps, x⟩
      { dtype := some .unicode, endianness := some (if Spec.isBig cfg e then .big else .little),
        fortranOrder := some x.fortranOrder, shape := x.shape, maxElementLength := some (Spec.longest x.values) }

theorem storable_peek {cfg : Cfg} {e : Endian} {t : AnyTensor} (h : Storable cfg e t) :
    ∃ f info, saveToString cfg t.ops t.x e = .ok f ∧ Announces cfg e t info ∧ peekString cfg f = .ok info := by
  cases h with
  | fixed dt ht x hx hv hlen =>
    obtain ⟨f, h1, h2⟩ := C07_peek_saved cfg dt ht x hx hv e hlen
    exact ⟨f, _, h1, .fixed dt x, h2⟩
  | wide x hx hw h0 hmax hlen =>
    obtain ⟨f, h1, h2⟩ := C07_peek_saved_unicode cfg x hx e hmax hlen
    exact ⟨f, _, h1, .wide x, h2⟩

theorem archive_peek (cfg : Cfg) (codec : Codec) (method : Nat) (hm : method < 2 ^ 16) (e : Endian) (puts : List (Bytes × AnyTensor))
    (hok : ∀ p ∈ puts, Storable cfg e p.2) (w : Writer)
    (hw : Writer.writeAll cfg codec puts (Writer.newString method e) = (.ok (), w))
    (hlen : w.str.length < 2 ^ 32) (hcount : puts.length < 2 ^ 16)
    (hnames : ∀ p ∈ puts, (Spec.storedName p.1).length < 2 ^ 16)
    (hback : ∀ p ∈ puts, ∀ f, saveToString cfg p.2.ops p.2.x e = .ok f → GivesBack codec method f) :
    ∃ w', Writer.close w = (.ok (), w') ∧
      ∀ s : IStream, s = IStream.ofBytes w'.str ∨ s = IStream.ofFile w'.str → ∃ r, Reader.open s = .ok r ∧
        ∀ (calls : List RdCall) (name : Bytes),
          (∀ t, Spec.lookup puts name = some t → ∃ info, Announces cfg e t info ∧
            (Reader.peek cfg codec name (r.after cfg codec calls)).1 = .ok info) ∧
          (Spec.lookup puts name = none →
            (Reader.peek cfg codec name (r.after cfg codec calls)).1 = .error (.throw (.invalidArgument .filename))) := by
  obtain ⟨w', c1, -, c3⟩ := writer_reads (newString_inv method e) hm hw hlen hnames
  refine ⟨w', c1, ?_⟩
  intro s hs
  have hs' : s.Ready w'.str := by rcases hs with rfl | rfl; exacts [ready_ofBytes _, ready_ofFile _]
  obtain ⟨r, o1, -, o3⟩ := c3 s hs'
  refine ⟨r, o1, ?_⟩
  intro calls name
  rw [reader_peek_eq, (o3 calls name).1, Nat.mod_eq_of_lt hcount, List.take_length]
  constructor
  · intro t hl
    obtain ⟨n, hn⟩ := lookup_mem hl
    obtain ⟨f, info, h1, h2, h3⟩ := storable_peek (hok _ hn)
    refine ⟨info, h2, ?_⟩
    have := hback _ hn f h1
    unfold GivesBack at this
    rw [hl]
    simp only [] at h1 ⊢
    change ((saveToString cfg t.ops t.x e).bind (readBack codec method)).bind _ = _
    rw [h1]
    simp only [Except.bind, this, h3]
  · intro hl
    rw [hl]
    rfl

/-- **C65**, STORED. Any tensors that NPY files can hold, written under any names: if the archive stays under 4 GiB, then after
any calls on a reader of it (string or file) `peek(name)` reports the tensor most recently written under that name, and
throws `invalid_argument` if there is none. -/
theorem C65_peek (cfg : Cfg) (codec : Codec) (e : Endian) (puts : List (Bytes × AnyTensor))
    (hok : ∀ p ∈ puts, Storable cfg e p.2) (w : Writer)
    (hw : Writer.writeAll cfg codec puts (Writer.newString STORED e) = (.ok (), w))
    (hlen : w.str.length < 2 ^ 32) (hcount : puts.length < 65536)
    (hnames : ∀ p ∈ puts, (Spec.storedName p.1).length < 65536)
    (hfiles : ∀ p ∈ puts, ∀ f, saveToString cfg p.2.ops p.2.x e = .ok f → f.length < 2 ^ 32) :
    ∃ w', Writer.close w = (.ok (), w') ∧
      ∀ s : IStream, s = IStream.ofBytes w'.str ∨ s = IStream.ofFile w'.str → ∃ r, Reader.open s = .ok r ∧
        ∀ (calls : List RdCall) (name : Bytes),
          (∀ t, Spec.lookup puts name = some t → ∃ info, Announces cfg e t info ∧
            (Reader.peek cfg codec name (r.after cfg codec calls)).1 = .ok info) ∧
          (Spec.lookup puts name = none →
            (Reader.peek cfg codec name (r.after cfg codec calls)).1 = .error (.throw (.invalidArgument .filename))) :=
  archive_peek cfg codec STORED (by decide) e puts hok w hw hlen hcount hnames
    fun p hp f hf => readBack_stored codec (hfiles p hp f hf)

/-- **C65**, DEFLATED, for files of the sizes `SafeSize`. -/
theorem C65_peek_deflated (cfg : Cfg) (j : Junk) (n : Nat) (hn : 2 ^ 36 ≤ n) (hbig : cfg.nativeBig = false) (e : Endian) (puts : List (Bytes × AnyTensor))
    (hok : ∀ p ∈ puts, Storable cfg e p.2) (w : Writer)
    (hw : Writer.writeAll cfg (miniz cfg j n) puts (Writer.newString DEFLATED e) = (.ok (), w))
    (hlen : w.str.length < 2 ^ 32) (hcount : puts.length < 65536)
    (hnames : ∀ p ∈ puts, (Spec.storedName p.1).length < 65536)
    (hfiles : ∀ p ∈ puts, ∀ f, saveToString cfg p.2.ops p.2.x e = .ok f → Spec.Deflate.SafeSize f.length) :
    ∃ w', Writer.close w = (.ok (), w') ∧
      ∀ s : IStream, s = IStream.ofBytes w'.str ∨ s = IStream.ofFile w'.str → ∃ r, Reader.open s = .ok r ∧
        ∀ (calls : List RdCall) (name : Bytes),
          (∀ t, Spec.lookup puts name = some t → ∃ info, Announces cfg e t info ∧
            (Reader.peek cfg (miniz cfg j n) name (r.after cfg (miniz cfg j n) calls)).1 = .ok info) ∧
          (Spec.lookup puts name = none → (Reader.peek cfg (miniz cfg j n) name (r.after cfg (miniz cfg j n) calls)).1 =
            .error (.throw (.invalidArgument .filename))) :=
  archive_peek cfg (miniz cfg j n) DEFLATED (by decide) e puts hok w hw hlen hcount hnames
    fun p hp f hf => miniz_givesBack cfg j n hn hbig f (hfiles p hp f hf)

/-- The strings of `exPuts`, and a name that is not there, in a stored archive. -/
example : ∃ w w' r, Writer.writeAll exCfg noCodec exPuts (Writer.newString STORED .little) = (.ok (), w) ∧
    Writer.close w = (.ok (), w') ∧ Reader.open (IStream.ofFile w'.str) = .ok r ∧
    (Reader.peek exCfg noCodec b!"y" (r.after exCfg noCodec [.peek b!"nope", .read _ (fixedOps .int16) b!"x"])).1 =
      .ok { dtype := some .unicode, endianness := some .little, fortranOrder := some exWide.fortranOrder,
            shape := exWide.shape, maxElementLength := some (Spec.longest exWide.values) } ∧
    (Reader.peek exCfg noCodec b!"nope" r).1 = .error (.throw (.invalidArgument .filename)) := by
  obtain ⟨w, h1, -⟩ := C30_npz_roundtrip exCfg noCodec .little exPuts exPuts_storable
  have hw : w = (Writer.writeAll exCfg noCodec exPuts (Writer.newString STORED .little)).2 := by rw [h1]
  obtain ⟨w', h3, h4⟩ := C65_peek exCfg noCodec .little exPuts exPuts_storable w h1 (by rw [hw]; decide +kernel) (by decide)
    (by decide) exPuts_files
  obtain ⟨r, h5, h6⟩ := h4 _ (.inr rfl)
  refine ⟨w, w', r, h1, h3, h5, ?_, (h6 [] b!"nope").2 rfl⟩
  obtain ⟨info, i1, i2⟩ := (h6 [.peek b!"nope", .read _ (fixedOps .int16) b!"x"] b!"y").1 ⟨WStr, wideOps, exWide⟩ rfl
  rw [i2]
  cases i1
  rfl

/-! ### C66: open and closed files -/

theorem afterFile_keeps (cfg : Cfg) (codec : Codec) (r : Reader) (calls : List FileCall) :
    (r.afterFile cfg codec calls).entries = r.entries ∧ (r.afterFile cfg codec calls).keys = r.keys ∧
      ((r.afterFile cfg codec calls).isOpen = true ↔ r.isOpen = true ∧ FileCall.close ∉ calls) := by
  induction calls generalizing r with
  | nil => simp [Reader.afterFile]
  | cons c calls ih =>
    cases c with
    | call c =>
      obtain ⟨h1, h2, h3⟩ := ih (c.run cfg codec r)
      obtain ⟨k1, k2, -, k4, -⟩ := after_keeps cfg codec r [c]
      simp only [Reader.after, List.foldl_cons, List.foldl_nil] at k1 k2 k4
      refine ⟨h1.trans k1, h2.trans k2, ?_⟩
      change ((c.run cfg codec r).afterFile cfg codec calls).isOpen = true ↔ _
      rw [h3]
      unfold Reader.isOpen
      rw [k4]
      simp
    | close =>
      obtain ⟨h1, h2, h3⟩ := ih r.close
      refine ⟨h1, h2, ?_⟩
      change (r.close.afterFile cfg codec calls).isOpen = true ↔ _
      rw [h3]
      simp [Reader.close, Reader.isOpen, IStream.close]

/-- **C66**, state. After any calls on a file reader, `is_open()` holds exactly if the file was open and `close()` is not
among the calls; `keys()` and `contains(name)` answer as at the start in any case. -/
theorem C66_is_open (cfg : Cfg) (codec : Codec) (r : Reader) (calls : List FileCall) (name : Bytes) :
    ((r.afterFile cfg codec calls).isOpen = true ↔ r.isOpen = true ∧ FileCall.close ∉ calls) ∧
      (r.afterFile cfg codec calls).keys = r.keys ∧ (r.afterFile cfg codec calls).contains name = r.contains name := by
  obtain ⟨h1, h2, h3⟩ := afterFile_keeps cfg codec r calls
  exact ⟨h3, h2, by unfold Reader.contains; rw [h1]⟩

theorem closed_readFile (codec : Codec) (r : Reader) (h : r.isOpen = false) (name : Bytes)
    (hname : r.contains name = true ∨ r.contains (name ++ b!".npy") = true) :
    (Reader.readFile codec name r).1 = .error .ub := by
  rw [readerReadFile_eq]
  unfold Npy.readFile
  simp only []
  rw [SM.bind_apply, SM.lift_apply]
  have hres : ∃ n, resolveName r.entries name = .ok n ∧ (r.entries.lookup n).isSome = true := by
    unfold Reader.contains at hname
    unfold resolveName
    by_cases h1 : (r.entries.lookup name).isSome = true
    · exact ⟨name, by rw [if_pos h1], h1⟩
    · have h2 := hname.resolve_left h1
      exact ⟨_, by rw [if_neg h1, if_pos h2], h2⟩
  obtain ⟨n, h1, h2⟩ := hres
  rw [h1]
  simp only []
  match h3 : r.entries.lookup n with
  | none => rw [h3] at h2; simp at h2
  | some entry =>
    simp only []
    unfold Reader.isOpen at h
    have h4 : ∃ s, IStream.seekg (toStreamoff entry.offset) r.input = (.ok (), s) ∧ s.good = false := by
      by_cases hf : r.input.fail = true
      · exact ⟨{ r.input with eof := false }, by simp [IStream.seekg, hf], by simp [IStream.good, hf]⟩
      · have hf' : r.input.fail = false := by simpa using hf
        exact ⟨{ r.input with eof := false, fail := true }, by simp [IStream.seekg, hf', h, IStream.setFail], by simp [IStream.good]⟩
    obtain ⟨s, h4, hg⟩ := h4
    rw [SM.bind_ok h4, SM.bind_apply]
    have h5 := readLocalHeader_bad hg
    match h6 : readLocalHeader s with
    | (.ok x, _) => rw [h6] at h5; simp at h5
    | (.error x, _) => rw [h6] at h5; simpa using h5

/-- **C66**, after `close()`. Once a file reader has been closed, whatever else is called on it: reading or peeking a name that
is stored is undefined behaviour (the signature of the local header is compared with memory that was never written);
a name that is not stored still throws `invalid_argument`. -/
theorem C66_closed (cfg : Cfg) (codec : Codec) (r : Reader) (calls : List FileCall) (hc : FileCall.close ∈ calls) (name : Bytes) :
    ((r.contains name = true ∨ r.contains (name ++ b!".npy") = true) →
      (∀ (α : Type) (ops : ElemOps α), (Reader.read cfg codec ops name (r.afterFile cfg codec calls)).1 = .error .ub) ∧
        (Reader.peek cfg codec name (r.afterFile cfg codec calls)).1 = .error .ub) ∧
    (r.contains name = false → r.contains (name ++ b!".npy") = false →
      (∀ (α : Type) (ops : ElemOps α), (Reader.read cfg codec ops name (r.afterFile cfg codec calls)).1 =
        .error (.throw (.invalidArgument .filename))) ∧
        (Reader.peek cfg codec name (r.afterFile cfg codec calls)).1 = .error (.throw (.invalidArgument .filename))) := by
  obtain ⟨h1, -, h3⟩ := C66_is_open cfg codec r calls name
  obtain ⟨-, -, h4⟩ := C66_is_open cfg codec r calls (name ++ b!".npy")
  have ho : (r.afterFile cfg codec calls).isOpen = false := by
    rw [← Bool.not_eq_true, h1]; exact fun h => h.2 hc
  rw [← h3, ← h4]
  constructor
  · intro h
    have key := closed_readFile codec _ ho name h
    exact ⟨fun α ops => by rw [reader_read_eq, key]; rfl, by rw [reader_peek_eq, key]; rfl⟩
  · intro h h'
    obtain ⟨a1, a2⟩ := C48_absent cfg codec _ name h h'
    exact ⟨fun α ops => by rw [a1], by rw [a2]⟩

/-- **C66**, writers. After any calls on a file writer, `is_open()` holds exactly if its file could be opened and `close()` is not
among the calls: this is how a caller can find out that the path could not be opened, which no other call reports. -/
theorem C66_writer (cfg : Cfg) (codec : Codec) (method : Nat) (e : Endian) (o : OStream) (calls : List WrCall) :
    (Writer.after cfg codec (Writer.newFile o method e) calls).isOpen = true ↔ o.isOpen = true ∧ WrCall.close ∉ calls := by
  have hwr : ∀ (o : OStream) (bs : Bytes), (o.write bs).isOpen = o.isOpen := by
    intro o bs
    unfold OStream.write
    split
    · rfl
    · split
      · rfl
      · split <;> rfl
  have hcl : ∀ (es : List FileEntry) (o : OStream), (es.foldl (fun o h => o.write (centralHeader h)) o).isOpen = o.isOpen := by
    intro es
    induction es with
    | nil => intro o; rfl
    | cons x es ih => intro o; rw [List.foldl_cons, ih, hwr]
  have hca : ∀ es o, (closeArchive es o).isOpen = o.isOpen := by
    intro es o
    unfold closeArchive
    simp only []
    rw [hwr, hcl]
  have key : ∀ (calls : List WrCall) (w : Writer), w.isFile = true → (w.closed = true → w.isOpen = false) →
      ((Writer.after cfg codec w calls).isOpen = true ↔ w.isOpen = true ∧ WrCall.close ∉ calls) := by
    intro calls
    induction calls with
    | nil => intro w _ _; simp [Writer.after]
    | cons c calls ih =>
      intro w hw hc
      change (Writer.after cfg codec (c.run cfg codec w).2 calls).isOpen = true ↔ _
      cases c with
      | write t name =>
        have h1 : (WrCall.run cfg codec w (.write t name)).2.isFile = true ∧
            (WrCall.run cfg codec w (.write t name)).2.closed = w.closed ∧
            (WrCall.run cfg codec w (.write t name)).2.isOpen = w.isOpen := by
          simp only [WrCall.run, Writer.write, Writer.isOpen]
          split
          · exact ⟨hw, rfl, rfl⟩
          · split
            · exact ⟨hw, rfl, rfl⟩
            · simp only [Writer.writeFile]
              split
              · exact ⟨hw, rfl, rfl⟩
              · split
                · rename_i o' es' heq
                  refine ⟨hw, rfl, ?_⟩
                  simp only []
                  unfold Npy.writeFile at heq
                  simp only [] at heq
                  split at heq
                  · simp at heq
                  · simp only [Except.ok.injEq, Prod.mk.injEq] at heq
                    rw [← heq.1, hwr, hwr]
                · exact ⟨hw, rfl, rfl⟩
        rw [ih _ h1.1 (by rw [h1.2.1, h1.2.2]; exact hc), h1.2.2]
        simp
      | close =>
        have h1 : (WrCall.run cfg codec w .close).2.isFile = true ∧
            (WrCall.run cfg codec w .close).2.isOpen = false := by
          simp only [WrCall.run, Writer.close]
          split
          · rename_i h
            exact ⟨hw, hc h⟩
          · exact ⟨hw, by simp [Writer.isOpen, hw]⟩
        rw [ih _ h1.1 (fun _ => h1.2), h1.2]
        simp
  exact key calls _ rfl (by simp [Writer.newFile])

/-- The archive of `exPuts`, read from a file that is closed after the first read. -/
example : ∃ w w' r, Writer.writeAll exCfg noCodec exPuts (Writer.newString STORED .little) = (.ok (), w) ∧
    Writer.close w = (.ok (), w') ∧ Reader.open (IStream.ofFile w'.str) = .ok r ∧
    (Reader.peek exCfg noCodec b!"y" (r.afterFile exCfg noCodec [.call (.peek b!"y"), .close, .call .keys])).1 = .error .ub := by
  obtain ⟨w, h1, -⟩ := C30_npz_roundtrip exCfg noCodec .little exPuts exPuts_storable
  have hw : w = (Writer.writeAll exCfg noCodec exPuts (Writer.newString STORED .little)).2 := by rw [h1]
  have hl : w.str.length < 2 ^ 32 := by rw [hw]; decide +kernel
  obtain ⟨w', c1, -, c3⟩ := writer_reads (newString_inv STORED .little) (by decide) h1 hl (by decide)
  obtain ⟨r, o1, -, o3⟩ := c3 _ (ready_ofFile _)
  refine ⟨w, w', r, h1, c1, o1, ((C66_closed exCfg noCodec r _ (by simp) b!"y").1 (.inr ?_)).2⟩
  have := (o3 [] (b!"y" ++ b!".npy")).2.1
  change r.contains _ = _ at this
  rw [this]
  decide

example : (Writer.after exCfg noCodec (Writer.newFile (OStream.limited 100) STORED .little) exCalls).isOpen = false ∧
    (Writer.after exCfg noCodec (Writer.newFile (OStream.limited 100) STORED .little) (exCalls.take 1)).isOpen = true := by
  constructor <;> decide +kernel

end Npy
