import Verif.Props.Hostile
/-!
# Damaged archives (C40, C49)
-/

namespace Npy
open Spec (storedName)

theorem findItem_append_cons {a c : List (FileEntry × Bytes)} {i : FileEntry × Bytes} (hc : ∀ j ∈ c, j.1.filename ≠ i.1.filename) :
    findItem (a ++ i :: c) i.1.filename = some i := by
  unfold findItem
  rw [List.reverse_append, List.reverse_cons, List.append_assoc, List.find?_append,
    List.find?_eq_none.2 (by intro j hj; simpa using hc j (List.mem_reverse.1 hj))]
  simp

theorem findItem_replace {a c : List (FileEntry × Bytes)} {i : FileEntry × Bytes} {d : Bytes} {m : Bytes} (hm : m ≠ i.1.filename) :
    findItem (a ++ (i.1, d) :: c) m = findItem (a ++ i :: c) m := by
  unfold findItem
  simp only [List.reverse_append, List.reverse_cons, List.append_assoc, List.find?_append]
  have h1 : ([(i.1, d)] : List (FileEntry × Bytes)).find? (fun i => i.1.filename = m) = none := by simp [Ne.symm hm]
  have h2 : [i].find? (fun i => i.1.filename = m) = none := by simp [Ne.symm hm]
  rw [h1, h2]

theorem storedName_suffix (n : Bytes) : b!".npy" <:+ storedName n := by
  unfold storedName
  split
  · assumption
  · exact List.suffix_append _ _

theorem localHeader_stored_length {e : FileEntry} (h : e.uncompressedSize = e.compressedSize) (z : Bool) :
    (localHeader e z).length = 30 + e.filename.length + if e.compressedSize > ZIP64_LIMIT then 20 else 0 := by
  unfold localHeader sharedHeader zip64Extra determineExtraLength write32
  simp only [h, List.length_append, w16, w32, leBytes_length]
  by_cases hc : e.compressedSize > ZIP64_LIMIT
  · simp [hc, w64, LOCAL_HEADER_SIG, TIME]
  · simp [hc, LOCAL_HEADER_SIG, TIME]

/-- **C40**. In an archive of stored entries made by any sequence of writes, take any entry (the last one written under its
name) and its file `f`: the archive is `P ++ f ++ Q`, `f` being found after the earlier entries and the entry's own
header. If in its place stands any `f'` that differs from `f`, but only within 32 consecutive bits, then reading the entry
or peeking at it, with or without the suffix in the name, throws, whatever calls were made before; and every other name reads as in the undamaged archive. -/
theorem C40_burst (cfg : Cfg) (codec : Codec) (e : Endian) (before rest : List (Bytes × AnyTensor)) (n : Bytes) (t : AnyTensor)
    (w₁ w : Writer) (h₁ : Writer.writeAll cfg codec before (Writer.newString STORED e) = (.ok (), w₁))
    (hw : Writer.writeAll cfg codec ((n, t) :: rest) w₁ = (.ok (), w))
    (hlen : w.str.length < 2 ^ 32) (hcount : (before ++ (n, t) :: rest).length < 65536)
    (hnames : ∀ p ∈ before ++ (n, t) :: rest, (storedName p.1).length < 65536)
    (hfiles : ∀ p ∈ before ++ (n, t) :: rest, ∀ f, saveToString cfg p.2.ops p.2.x e = .ok f → f.length < 2 ^ 32)
    (hlast : ∀ p ∈ rest, storedName p.1 ≠ storedName n) :
    ∃ w' f P Q, saveToString cfg t.ops t.x e = .ok f ∧ Writer.close w = (.ok (), w') ∧ w'.str = P ++ f ++ Q ∧
      P.length = w₁.str.length + 30 + (storedName n).length + (if f.length > 0x8FFFFFFF then 20 else 0) ∧
      ∀ (f' : Bytes) (A X X' B : List Bool), f'.length = f.length → Spec.bits f = A ++ X ++ B → Spec.bits f' = A ++ X' ++ B →
        X.length = X'.length → X.length ≤ 32 → X ≠ X' →
        ∀ s : IStream, s = IStream.ofBytes (P ++ f' ++ Q) ∨ s = IStream.ofFile (P ++ f' ++ Q) → ∃ r, Reader.open s = .ok r ∧
          ∀ (calls : List RdCall),
            (∀ name, storedName name = storedName n →
              (∀ (α : Type) (ops : ElemOps α), (Reader.read cfg codec ops name (r.after cfg codec calls)).1 =
                .error (.throw (.runtimeError .crcMismatch))) ∧
              (Reader.peek cfg codec name (r.after cfg codec calls)).1 = .error (.throw (.runtimeError .crcMismatch))) ∧
            ∀ name, name ≠ storedName n → name ++ b!".npy" ≠ storedName n → ∀ (α : Type) (ops : ElemOps α),
              (Reader.read cfg codec ops name (r.after cfg codec calls)).1 =
                match Spec.lookup (before ++ (n, t) :: rest) name with
                | some t => (saveToString cfg t.ops t.x e).bind (loadFromString cfg ops)
                | none => .error (.throw (.invalidArgument .filename)) := by
  obtain ⟨ia, i1, i2, i3⟩ := writeAll_inv (newString_inv STORED e) h₁
  rw [List.nil_append] at i1
  have hmeth : w₁.method = STORED := by rw [i2]; rfl
  have hend : w₁.endianness = e := by rw [i2]; rfl
  have hw0 := hw
  rw [Writer.writeAll] at hw0
  obtain ⟨⟨⟩, w2, k1, k2⟩ := SM.of_bind_ok hw0
  obtain ⟨item, f, e1, e2, e3, e4⟩ := write_inv i1 k1
  obtain ⟨ic, g1, g2, g3⟩ := writeAll_inv e3 k2
  have hm2 : w2.method = STORED := by rw [e4]; exact hmeth
  have he2 : w2.endianness = e := by rw [e4]; exact hend
  rw [hmeth] at e2
  rw [hend] at e1
  rw [hm2, he2] at g3
  rw [List.append_assoc, List.singleton_append] at g1
  have hall : List.Forall₂ (WroteAs cfg codec STORED e) (before ++ (n, t) :: rest) (ia ++ item :: ic) :=
    List.rel_append i3 (.cons ⟨f, e1, e2⟩ g3)
  obtain ⟨w', c1, c2, c3, -⟩ := close_arch g1 (by decide) hall hlen hnames
  have hil : (ia ++ item :: ic).length < 65536 := by rw [← hall.length_eq]; exact hcount
  obtain ⟨P, Q, p1, p2, p3⟩ := c3.replace
  have hf32 : f.length < 2 ^ 32 := hfiles (n, t) (by simp) f e1
  obtain ⟨d, d1, d2, d3⟩ := e2.comp
  simp only [compressWith, if_pos, Except.ok.injEq] at d1
  subst d1
  rw [Nat.mod_eq_of_lt hf32, List.take_length] at d3
  rw [Nat.mod_eq_of_lt hf32] at d2
  have husz := e2.usize
  rw [Nat.mod_eq_of_lt hf32] at husz
  refine ⟨w', f, P, Q, e1, c1, by rw [← d3]; exact p1, ?_, ?_⟩
  · rw [p2]
    have : w₁.str.length = (ia.flatMap recBytes).length := congrArg List.length i1.buf
    rw [this]
    unfold recBytes
    rw [List.length_append, Nat.add_sub_cancel, localHeader_stored_length (by rw [husz, d2]), e2.filename, d2]
    unfold ZIP64_LIMIT
    omega
  · intro f' A X X' B hl hA hB hX hX32 hXne s hs
    have ha := p3 f' (by rw [d3]; exact hl)
    obtain ⟨vis, hvis⟩ : ∃ v, v = ia ++ (item.1, f') :: ic := ⟨_, rfl⟩
    have hvl : vis.length % 2 ^ 16 = vis.length := by
      refine Nat.mod_eq_of_lt ?_
      rw [hvis]; simpa using hil
    rw [← hvis, hvl, List.take_length] at ha
    have hready : s.Ready (P ++ f' ++ Q) := by
      rcases hs with rfl | rfl
      · exact ready_ofBytes _
      · exact ready_ofFile _
    obtain ⟨r, o1, o2⟩ := arch_open ha hready
    refine ⟨r, o1, fun calls => ?_⟩
    have hr := after_inv ha cfg codec o2 calls
    -- the damaged entry
    have hicn : ∀ j ∈ ic, j.1.filename ≠ item.1.filename := by
      intro j hj
      obtain ⟨p, hp, f2, -, ho⟩ := forall₂_mem_right g3 hj
      rw [ho.filename, e2.filename]
      exact hlast p hp
    have hnm : ∀ j ∈ vis, b!".npy" <:+ j.1.filename := by
      intro j hj
      have : ∃ j' ∈ ia ++ item :: ic, j'.1.filename = j.1.filename := by
        rw [hvis] at hj
        simp only [List.mem_append, List.mem_cons] at hj ⊢
        rcases hj with hj | rfl | hj
        · exact ⟨j, .inl hj, rfl⟩
        · exact ⟨item, .inr (.inl rfl), rfl⟩
        · exact ⟨j, .inr (.inr hj), rfl⟩
      obtain ⟨j', hj', hn⟩ := this
      obtain ⟨p, hp, f2, -, ho⟩ := forall₂_mem_right hall hj'
      rw [← hn, ho.filename]
      exact storedName_suffix _
    have hfi : findItem vis (storedName n) = some (item.1, f') := by
      rw [hvis]
      have := findItem_append_cons (a := ia) (c := ic) (i := (item.1, f')) hicn
      simpa only [e2.filename] using this
    have hfn : ∀ n', storedName n' = storedName n → findName vis n' = some (item.1, f') := by
      intro n' hn'
      rw [← hn'] at hfi
      clear hn' hlast e2 hw hw0 k1 hcount hnames hfiles hall
      revert n'
      intro n hfi
      unfold findName
      by_cases hsuf : b!".npy" <:+ n
      · have : storedName n = n := by unfold storedName; rw [if_pos hsuf]
        rw [this] at hfi
        rw [hfi]
      · have : storedName n = n ++ b!".npy" := by unfold storedName; rw [if_neg hsuf]
        rw [this] at hfi
        have hnone : findItem vis n = none := by
          refine List.find?_eq_none.2 fun j hj => ?_
          intro hjn
          have hjn : j.1.filename = n := by simpa using hjn
          exact hsuf (hjn ▸ hnm j (List.mem_reverse.1 hj))
        rw [hnone, hfi]
    have hbad : ∀ n', storedName n' = storedName n →
        (Reader.readFile codec n' (r.after cfg codec calls)).1 = .error (.throw (.runtimeError .crcMismatch)) := by
      intro n' hn'
      obtain ⟨r', -, q⟩ := arch_read ha codec hr n'
      rw [q, hfn n' hn']
      simp only [finish, decompressWith]
      rw [e2.method, if_neg (by decide)]
      simp only []
      rw [if_pos]
      rw [e2.crc]
      exact (crc_burst hl.symm hf32 hA hB hX hX32 hXne).symm
    refine ⟨fun n' hn' => ⟨fun α ops => by rw [reader_read_eq, hbad n' hn']; rfl, by rw [reader_peek_eq, hbad n' hn']; rfl⟩, ?_⟩
    intro name hne1 hne2 α ops
    rw [reader_read_eq]
    obtain ⟨r', -, q⟩ := arch_read ha codec hr name
    have hfe : findName vis name = findName (ia ++ item :: ic) name := by
      unfold findName
      rw [hvis, findItem_replace (m := name) (by rw [e2.filename]; exact hne1),
        findItem_replace (m := name ++ _) (by rw [e2.filename]; exact hne2)]
    rw [q, hfe]
    rcases findName_wrote hall name with ⟨l1, l2⟩ | ⟨p, i, l1, l2, l3, l4, l5⟩
    · rw [l1, l2]; rfl
    · rw [l1, l3]
      simp only []
      rw [l5.finish]
      obtain ⟨f2, hf2, -⟩ := l5
      rw [hf2]
      simp only [Except.bind]
      rw [readBack_stored codec (hfiles p l2 f2 hf2)]

/-- The file of an example, and the same file with two bits of one element flipped. -/
@[irreducible] def exFile : Bytes := (saveToString exCfg wideOps exWide .little).toOption.getD []
@[irreducible] def exDamaged : Bytes := exFile.set 129 ((exFile[129]?).getD 0 ^^^ 0x81)

example : ∃ w w' P Q r, Writer.writeAll exCfg noCodec exPuts (Writer.newString STORED .little) = (.ok (), w) ∧
    Writer.close w = (.ok (), w') ∧ w'.str = P ++ exFile ++ Q ∧ exFile ≠ exDamaged ∧
    Reader.open (IStream.ofBytes (P ++ exDamaged ++ Q)) = .ok r ∧
    (Reader.read exCfg noCodec wideOps b!"y" r).1 = .error (.throw (.runtimeError .crcMismatch)) ∧
    (Reader.read exCfg noCodec (fixedOps .float64) b!"x" (r.after exCfg noCodec [.peek b!"y"])).1 = .ok exTensor2 := by
  obtain ⟨w, h1, -⟩ := C30_npz_roundtrip exCfg noCodec .little exPuts exPuts_storable
  have hw : w = (Writer.writeAll exCfg noCodec exPuts (Writer.newString STORED .little)).2 := by rw [h1]
  obtain ⟨w₁, h2, h3⟩ := writeAll_append [(b!"x", ⟨Elem, fixedOps .int16, exTensor⟩)]
    [(b!"y.npy", ⟨WStr, wideOps, exWide⟩), (b!"x.npy", ⟨Elem, fixedOps .float64, exTensor2⟩)] h1
  obtain ⟨w', f, P, Q, a1, a2, a3, -, a5⟩ := C40_burst exCfg noCodec .little _ _ _ _ w₁ w h2 h3 (by rw [hw]; decide +kernel)
    (by decide) (by decide) exPuts_files (by decide)
  have hf : f = exFile := by unfold exFile; rw [a1]; rfl
  subst hf
  obtain ⟨r, b1, b2⟩ := a5 exDamaged ((Spec.bits exFile).take 1032) (((Spec.bits exFile).drop 1032).take 8)
    (((Spec.bits exDamaged).drop 1032).take 8) ((Spec.bits exFile).drop 1040) (by decide +kernel) (by decide +kernel)
    (by decide +kernel) (by decide +kernel) (by decide +kernel) (by decide +kernel) _ (.inl rfl)
  refine ⟨w, w', P, Q, r, h1, a2, a3, by decide +kernel, b1, ?_, ?_⟩
  · exact ((b2 []).1 b!"y" (by decide)).1 _ _
  · rw [(b2 [.peek b!"y"]).2 b!"x" (by decide) (by decide)]
    obtain ⟨f2, g1, g2⟩ := storable_roundtrip (exPuts_storable (b!"x.npy", ⟨Elem, fixedOps .float64, exTensor2⟩) (by simp [exPuts]))
    show (saveToString exCfg (fixedOps .float64) exTensor2 .little).bind _ = _
    rw [g1]; exact g2

/-! ### C46: the end record -/

/-- **C46**. Opening any byte string of 22 bytes or more, whose last 22 bytes do not begin with the signature of the end record,
throws `runtime_error`, as a string and as a file. -/
theorem C46_end_record (b : Bytes) (h : 22 ≤ b.length) (hsig : (b.drop (b.length - 22)).take 4 ≠ [0x50, 0x4B, 5, 6])
    (s : IStream) (hs : s = IStream.ofBytes b ∨ s = IStream.ofFile b) :
    Reader.open s = .error (.throw (.runtimeError .badSignature)) := by
  obtain ⟨s', k1, k2, k3⟩ : ∃ s', IStream.seekgEnd (-22) s = (.ok (), s') ∧ s'.good = true ∧ s'.rest = b.drop (b.length - 22) := by
    have e1 : ((b.length : Int) + -22).toNat = b.length - 22 := by omega
    rcases hs with rfl | rfl
    · refine ⟨{ IStream.ofBytes b with rest := b.drop (b.length - 22) }, ?_, rfl, rfl⟩
      simp [IStream.seekgEnd, IStream.seekg, IStream.ofBytes, e1]
      intro; omega
    · refine ⟨{ IStream.ofFile b with rest := b.drop (b.length - 22) }, ?_, rfl, rfl⟩
      simp [IStream.seekgEnd, IStream.seekg, IStream.ofFile, e1]
      intro; omega
  have hopen : s.isOpen = true := by rcases hs with rfl | rfl <;> rfl
  have hl : 4 ≤ s'.rest.length := by rw [k3, List.length_drop]; omega
  have h1 : ∃ s'', assertSig CD_END_SIG s' = (.error (.throw (.runtimeError .badSignature)), s'') := by
    refine ⟨{ s' with rest := s'.rest.drop 4 }, ?_⟩
    unfold assertSig
    have : IStream.read 4 s' = (.ok (s'.rest.take 4), { s' with rest := s'.rest.drop 4 }) := by
      simp [IStream.read, k2, hl]
    rw [SM.bind_ok this, if_neg (by rw [List.length_take]; omega), if_pos (by rw [k3]; exact hsig)]
    rfl
  obtain ⟨s'', h1⟩ := h1
  have h2 : readEndOfCentralDirectory s' = (.error (.throw (.runtimeError .badSignature)), s'') := by
    unfold readEndOfCentralDirectory
    rw [SM.bind_error h1]
  have h3 : readEntries s = (.error (.throw (.runtimeError .badSignature)), s'') := by
    unfold readEntries
    rw [show (-(CD_END_SIZE : Int)) = -22 from rfl, SM.bind_ok k1, SM.bind_error h2]
  unfold Reader.open
  rw [hopen, h3]
  rfl

/-- **C46**, consequence: a good archive with a comment of 1 to 65535 bytes in its end record (which ZIP allows), or with any
other bytes behind it, is rejected unless the signature happens to stand 22 bytes before the new end. -/
theorem C46_comment (b comment : Bytes) (h : 22 ≤ b.length)
    (hsig : ((b ++ comment).drop (b.length + comment.length - 22)).take 4 ≠ [0x50, 0x4B, 5, 6]) :
    Reader.open (IStream.ofBytes (b ++ comment)) = .error (.throw (.runtimeError .badSignature)) :=
  C46_end_record _ (by rw [List.length_append]; omega) (by rw [List.length_append]; exact hsig) _ (.inl rfl)

/-- **C46**, below 22 bytes: opening is undefined behaviour (the seek fails and the signature that was not read is compared). -/
theorem C46_short (b : Bytes) (h : b.length < 22) (s : IStream) (hs : s = IStream.ofBytes b ∨ s = IStream.ofFile b) :
    Reader.open s = .error .ub := by
  obtain ⟨s', k1, k2⟩ : ∃ s', IStream.seekgEnd (-22) s = (.ok (), s') ∧ s'.good = false := by
    rcases hs with rfl | rfl
    · refine ⟨(IStream.ofBytes b).setFail, ?_, rfl⟩
      simp [IStream.seekgEnd, IStream.seekg, IStream.ofBytes]
      intro; omega
    · refine ⟨(IStream.ofFile b).setFail, ?_, rfl⟩
      simp [IStream.seekgEnd, IStream.seekg, IStream.ofFile]
      intro; omega
  have hopen : s.isOpen = true := by rcases hs with rfl | rfl <;> rfl
  have h0 := assertSig_bad (sig := CD_END_SIG) k2
  match h1 : assertSig CD_END_SIG s' with
  | (.ok _, _) => rw [h1] at h0; simp at h0
  | (.error e, s'') =>
    rw [h1] at h0
    simp only [Except.error.injEq] at h0
    subst h0
    have h2 : readEndOfCentralDirectory s' = (.error .ub, s'') := by
      unfold readEndOfCentralDirectory
      rw [SM.bind_error h1]
    have h3 : readEntries s = (.error .ub, s'') := by
      unfold readEntries
      rw [show (-(CD_END_SIZE : Int)) = -22 from rfl, SM.bind_ok k1, SM.bind_error h2]
    unfold Reader.open
    rw [hopen, h3]
    rfl

/-- An empty archive opens; with a comment it does not. -/
example : (Reader.open (IStream.ofBytes (Spec.zipEnd 0 0 0))).toOption.map (·.keys) = some [] ∧
    Reader.open (IStream.ofBytes (Spec.zipEnd 0 0 0 ++ b!"hello")) = .error (.throw (.runtimeError .badSignature)) ∧
    Reader.open (IStream.ofBytes b!"PK") = .error .ub :=
  ⟨by decide +kernel, C46_comment _ _ (by decide) (by decide), C46_short _ (by decide) _ (.inl rfl)⟩

/-! ### C49: errors and later reads -/

/-- **C49**, the true part. For every reader on any data and any two histories of calls, whether these returned or threw: as long
as neither history has run into the end of the data (which sets the stream's failbit), later reads give the same. -/
theorem C49_independent (cfg : Cfg) (codec : Codec) (r : Reader) (calls calls' : List RdCall)
    (h : (r.after cfg codec calls).input.fail = false) (h' : (r.after cfg codec calls').input.fail = false) (name : Bytes) :
    (∀ (α : Type) (ops : ElemOps α), (Reader.read cfg codec ops name (r.after cfg codec calls)).1 =
      (Reader.read cfg codec ops name (r.after cfg codec calls')).1) ∧
    (Reader.peek cfg codec name (r.after cfg codec calls)).1 = (Reader.peek cfg codec name (r.after cfg codec calls')).1 := by
  obtain ⟨a1, -, a3, a4, a5⟩ := after_keeps cfg codec r calls
  obtain ⟨b1, -, b3, b4, b5⟩ := after_keeps cfg codec r calls'
  have key : (Reader.readFile codec name (r.after cfg codec calls)).1 = (Reader.readFile codec name (r.after cfg codec calls')).1 := by
    rw [readerReadFile_eq, readerReadFile_eq]
    simp only []
    rw [a1, b1]
    exact readFile_indep codec _ name (a3.trans b3.symm) (a4.trans b4.symm) (a5.trans b5.symm) h h'
  exact ⟨fun α ops => by rw [reader_read_eq, reader_read_eq, key], by rw [reader_peek_eq, reader_peek_eq, key]⟩

/-- **C49**, once the failbit is set: every later read or peek of a name that is stored is undefined behaviour. -/
theorem C49_sticky (cfg : Cfg) (codec : Codec) (r : Reader) (h : r.input.fail = true) (name : Bytes)
    (hname : r.contains name = true ∨ r.contains (name ++ b!".npy") = true) :
    (∀ (α : Type) (ops : ElemOps α), (Reader.read cfg codec ops name r).1 = .error .ub) ∧
      (Reader.peek cfg codec name r).1 = .error .ub := by
  have key : (Reader.readFile codec name r).1 = .error .ub := by
    rw [readerReadFile_eq]
    unfold Npy.readFile
    simp only []
    rw [SM.bind_apply, SM.lift_apply]
    have hres : ∃ n, resolveName r.entries name = .ok n ∧ (r.entries.lookup n).isSome = true := by
      unfold Reader.contains at hname
      unfold resolveName
      by_cases h1 : (r.entries.lookup name).isSome = true
      · exact ⟨name, by rw [if_pos h1], h1⟩
      · have h2 := hname.resolve_left h1
        exact ⟨_, by rw [if_neg h1, if_pos h2], h2⟩
    obtain ⟨n, h1, h2⟩ := hres
    rw [h1]
    simp only []
    match h3 : r.entries.lookup n with
    | none => rw [h3] at h2; simp at h2
    | some entry =>
      simp only []
      have h4 : IStream.seekg (toStreamoff entry.offset) r.input = (.ok (), { r.input with eof := false }) := by
        simp [IStream.seekg, h]
      rw [SM.bind_ok h4, SM.bind_apply]
      have h5 := readLocalHeader_bad (s := { r.input with eof := false }) (by simp [IStream.good, h])
      match h6 : readLocalHeader { r.input with eof := false } with
      | (.ok x, _) => rw [h6] at h5; simp at h5
      | (.error x, _) => rw [h6] at h5; simpa using h5
  exact ⟨fun α ops => by rw [reader_read_eq, key]; rfl, by rw [reader_peek_eq, key]; rfl⟩

/-- A good archive with two entries `a` and `b`. -/
@[irreducible] def exTwo : Bytes :=
  (((Writer.writeAll exCfg noCodec [(b!"a", ⟨Elem, fixedOps .int16, exTensor⟩), (b!"b", ⟨Elem, fixedOps .int16, exTensor⟩)]
    (Writer.newString STORED .little)) |> fun p => Writer.close p.2).2).str

/-- The same with the compressed size of `a` made larger by 1024 in both its headers: local header at 0, directory at the
offset given in the end record. -/
@[irreducible] def exTwoBad : Bytes :=
  (exTwo.set 19 4).set (Spec.leAt exTwo (exTwo.length - 6) 4 + 21) 4

@[irreducible] def exReader (b : Bytes) : Reader := (Reader.open (IStream.ofBytes b)).toOption.getD default

@[irreducible] def exAfter (calls : List RdCall) : Reader := (exReader exTwoBad).after exCfg noCodec calls

theorem exTwoBad_fail : (exAfter [.read _ (fixedOps .int16) b!"a"]).input.fail = true := by decide +kernel
theorem exTwoBad_ok : (exAfter [.read _ (fixedOps .int16) b!"b", .peek b!"nope"]).input.fail = false := by decide +kernel
theorem exTwoBad_contains : (exAfter [.read _ (fixedOps .int16) b!"a"]).contains (b!"b" ++ b!".npy") = true := by
  have h1 : (exReader exTwoBad).contains (b!"b" ++ b!".npy") = true := by decide +kernel
  unfold exAfter
  generalize exReader exTwoBad = r at h1
  unfold Reader.contains at h1 ⊢
  rw [(after_keeps exCfg noCodec r [.read _ (fixedOps .int16) b!"a"]).1]
  exact h1

/-- **C49**, in general false: in this archive `b` can be read; but after an attempt to read the damaged entry `a`, which throws,
reading `b` is undefined behaviour. -/
theorem C49_false : ∃ (b : Bytes) (r : Reader), Reader.open (IStream.ofBytes b) = .ok r ∧
    (Reader.read exCfg noCodec (fixedOps .int16) b!"b" r).1 = .ok exTensor ∧
    (Reader.read exCfg noCodec (fixedOps .int16) b!"a" r).1 = .error (.throw (.runtimeError .crcMismatch)) ∧
    (Reader.read exCfg noCodec (fixedOps .int16) b!"b" (r.after exCfg noCodec [.read _ (fixedOps .int16) b!"a"])).1 =
      .error .ub := by
  have h1 : Reader.open (IStream.ofBytes exTwoBad) = .ok (exReader exTwoBad) := by decide +kernel
  have h2 : (Reader.read exCfg noCodec (fixedOps .int16) b!"b" (exReader exTwoBad)).1 = .ok exTensor := by decide +kernel
  have h3 : (Reader.read exCfg noCodec (fixedOps .int16) b!"a" (exReader exTwoBad)).1 =
    .error (.throw (.runtimeError .crcMismatch)) := by decide +kernel
  have h4 := exTwoBad_fail
  have h5 := exTwoBad_contains
  unfold exAfter at h4 h5
  generalize exReader exTwoBad = r at h1 h2 h3 h4 h5
  generalize exTwoBad = b at h1
  exact ⟨b, r, h1, h2, h3, (C49_sticky _ _ _ h4 _ (.inr h5)).1 _ _⟩

/-- The hypotheses of `C49_independent` and of `C49_sticky` are met by this archive. -/
example : (exAfter [.read _ (fixedOps .int16) b!"b", .peek b!"nope"]).input.fail = false ∧
    (exAfter [.read _ (fixedOps .int16) b!"a"]).input.fail = true ∧
    (exAfter [.read _ (fixedOps .int16) b!"a"]).contains (b!"b" ++ b!".npy") = true :=
  ⟨exTwoBad_ok, exTwoBad_fail, exTwoBad_contains⟩

/-- `C39_checked` on an archive with hostile sizes: `b` is returned, hence checked. -/
example : ∃ stored method crc csize usize p q, (stored = b!"b" ∨ stored = b!"b" ++ b!".npy") ∧
    Spec.CentralAt exTwoBad p stored method crc csize usize q ∧ Spec.LocalAt exTwoBad q stored method crc csize usize ∧
    npyCrc32 ((saveToString exCfg (fixedOps .int16) exTensor .little).toOption.getD []) = crc := by
  obtain ⟨a, b, c, d, e, p, q, h1, h2, h3, h4, -⟩ := C39_checked exCfg noCodec exTwoBad _ (.inl rfl) (exReader exTwoBad)
    (by decide +kernel) [.peek b!"nope"] b!"b" ((saveToString exCfg (fixedOps .int16) exTensor .little).toOption.getD [])
    (by decide +kernel)
  exact ⟨a, b, c, d, e, p, q, h1, h2, h3, h4⟩

end Npy
