import Verif.Spec.Program
import Verif.Props.Images
/-!
# C76: programs that work on files
-/

namespace Npy
open Spec

/-! ### Sizes -/

theorem localHeader_length_le (e : FileEntry) (z : Bool) : (localHeader e z).length ≤ 50 + e.filename.length := by
  unfold localHeader sharedHeader zip64Extra determineExtraLength write32
  simp only [List.length_append, w16, w32, leBytes_length]
  by_cases hc : e.compressedSize > ZIP64_LIMIT <;> by_cases hu : e.uncompressedSize > ZIP64_LIMIT <;>
    simp [hc, hu, w64, LOCAL_HEADER_SIG, TIME] <;> omega

theorem archive_length {cfg : Cfg} {codec : Codec} {puts : List (Bytes × AnyTensor)} {w0 w1 : Writer} (h0 : WInv w0 [])
    (h1 : Writer.writeAll cfg codec puts w0 = (.ok (), w1)) (size : Bytes × AnyTensor → Nat)
    (hsize : ∀ p ∈ puts, ∀ f d, saveToString cfg p.2.ops p.2.x w0.endianness = .ok f → compressWith codec w0.method f = .ok d →
      d.length ≤ size p) :
    w1.str.length ≤ (puts.map fun p => 50 + (storedName p.1).length + size p).sum := by
  obtain ⟨items, hi, -, hf⟩ := writeAll_inv h0 h1
  rw [List.nil_append] at hi
  have e : w1.str = items.flatMap recBytes := hi.buf
  rw [e]
  clear e hi h1
  induction hf with
  | nil => simp
  | @cons p i puts items hpi _ ih =>
    obtain ⟨f, hs, hio⟩ := hpi
    rw [List.flatMap_cons, List.length_append, List.map_cons, List.sum_cons]
    have := ih fun q hq => hsize q (List.mem_cons_of_mem _ hq)
    obtain ⟨d, c1, c2, c3⟩ := hio.comp
    have hl := hsize p (by simp) f d hs c1
    have hh := localHeader_length_le i.1 (decide (i.1.uncompressedSize > ZIP64_LIMIT ∨ i.1.compressedSize > ZIP64_LIMIT))
    have hr : (recBytes i).length ≤ 50 + (storedName p.1).length + d.length := by
      unfold recBytes
      rw [hio.filename] at hh
      rw [List.length_append, c3, List.length_take]
      omega
    omega

/-! ### One archive -/

theorem writer_trace_length (cfg : Cfg) (codec : Codec) (w : Writer) (calls : List WrCall) :
    (Writer.trace cfg codec w calls).length = calls.length := by
  induction calls generalizing w with
  | nil => rfl
  | cons c calls ih => simp [Writer.trace, ih]

/-- The bytes `bytes` open as an archive of the tensors `puts`. -/
def IsArchive (cfg : Cfg) (codec : Codec) (e : Endian) (puts : List (Bytes × AnyTensor)) (bytes : Bytes) : Prop :=
  ∃ r, Reader.open (IStream.ofFile bytes) = .ok r ∧ ∀ calls : List RdCall,
    (∀ name t, lookup puts name = some t → ∃ f, Storable cfg e t ∧ saveToString cfg t.ops t.x e = .ok f ∧
      (Reader.readFile codec name (r.after cfg codec calls)).1 = .ok f) ∧
    (∀ name, lookup puts name = none → (Reader.readFile codec name (r.after cfg codec calls)).1 = .error noName) ∧
    (∀ name, (r.after cfg codec calls).contains name = true ↔ ∃ p ∈ puts, storedName p.1 = name) ∧
    (r.after cfg codec calls).keys.Perm (puts.map fun p => storedName p.1) ∧ (r.after cfg codec calls).keys.Pairwise (· ≤ ·)

theorem pack_archive {cfg : Cfg} {codec : Codec} {method : Nat} (hm : method < 2 ^ 16) {e : Endian} {puts : List (Bytes × AnyTensor)}
    (hok : ∀ p ∈ puts, Storable cfg e p.2) (hcount : puts.length < 2 ^ 16) (hnames : ∀ p ∈ puts, (storedName p.1).length < 2 ^ 16)
    (hback : ∀ p ∈ puts, ∀ f, saveToString cfg p.2.ops p.2.x e = .ok f → GivesBack codec method f) (size : Bytes × AnyTensor → Nat)
    (hsize : ∀ p ∈ puts, ∀ f d, saveToString cfg p.2.ops p.2.x e = .ok f → compressWith codec method f = .ok d → d.length ≤ size p)
    (htotal : (puts.map fun p => 50 + (storedName p.1).length + size p).sum < 2 ^ 32) :
    (Writer.trace cfg codec (Writer.newFile OStream.empty method e) (puts.map fun p => .write p.2 p.1)).map (·.2) =
        puts.map (fun _ => .ok ()) ∧
    IsArchive cfg codec e puts (Writer.destroy (Writer.after cfg codec (Writer.newFile OStream.empty method e)
      (puts.map fun p => .write p.2 p.1))).2.output.buf := by
  obtain ⟨w, h1⟩ := writeAll_ok (cfg := cfg) (codec := codec) puts (newFile_inv method e) (by
    intro p hp
    obtain ⟨f, h1, -⟩ := storable_roundtrip (hok p hp)
    have hb := hback p hp f h1
    unfold GivesBack readBack at hb
    match hc : compressWith codec method f with
    | .error er => rw [hc] at hb; simp at hb
    | .ok d => exact ⟨f, d, h1, hc⟩)
  have hlen : w.str.length < 2 ^ 32 := Nat.lt_of_le_of_lt (archive_length (newFile_inv method e) h1 size hsize) htotal
  obtain ⟨w', c1, -, c3⟩ := writer_reads (newFile_inv method e) hm h1 hlen hnames
  obtain ⟨a1, a2⟩ := writeAll_after cfg codec puts h1
  have e4 : (Writer.destroy (Writer.after cfg codec (Writer.newFile OStream.empty method e)
      (puts.map fun p => .write p.2 p.1))).2.output.buf = w'.str := by
    rw [destroy_eq_close, a1, c1]; rfl
  rw [e4]
  constructor
  · apply List.ext_getElem
    · rw [List.length_map, List.length_map, writer_trace_length, List.length_map]
    · intro i h2 h3
      have h4 := a2 _ (List.getElem_mem h2)
      rw [h4, List.getElem_map]
  · obtain ⟨r, o1, k1, p1⟩ := c3 _ (ready_ofFile _)
    rw [Nat.mod_eq_of_lt hcount, List.take_length] at k1
    refine ⟨r, o1, fun calls => ⟨?_, ?_, ?_, ?_⟩⟩
    · intro name t hl
      obtain ⟨n, hn⟩ := lookup_mem hl
      obtain ⟨f, hf, -⟩ := storable_roundtrip (hok _ hn)
      refine ⟨f, hok _ hn, hf, ?_⟩
      rw [(p1 calls name).1, Nat.mod_eq_of_lt hcount, List.take_length, hl]
      show (saveToString cfg t.ops t.x e).bind (readBack codec method) = _
      rw [hf]
      exact hback _ hn f hf
    · intro name hl
      rw [(p1 calls name).1, Nat.mod_eq_of_lt hcount, List.take_length, hl]
      rfl
    · intro name
      rw [(p1 calls name).2.1, Nat.mod_eq_of_lt hcount, List.take_length]
      unfold Spec.lastWrite
      rw [Option.isSome_map, List.find?_isSome]
      simp
    · rw [(p1 calls []).2.2, k1]
      exact ⟨sortKeys_perm _, sortKeys_sorted _⟩

/-! ### Reading one array -/

theorem libKind_libOps {k : ElemKind} (h : LibKind k) : LibOps k.ops := by
  cases h with
  | fixed t ht => exact .fixed t ht
  | wide => exact .wide

theorem storable_libKind {cfg : Cfg} {e : Endian} {t : AnyTensor} (h : Storable cfg e t) : LibKind (kindOf t) := by
  cases h with
  | fixed t ht => exact .fixed t ht
  | wide => exact .wide

theorem libKind_dtype {k l : ElemKind} (hk : LibKind k) (hl : LibKind l) (h : k.ops.dtype = l.ops.dtype) : k = l := by
  cases hk with
  | fixed t ht => cases hl with
    | fixed u hu => have : t = u := h; rw [this]
    | wide => exact absurd h ht
  | wide => cases hl with
    | fixed u hu => exact absurd h.symm hu
    | wide => rfl

theorem reads_saved {cfg : Cfg} {e : Endian} {t : AnyTensor} (ht : Storable cfg e t) {f : Bytes}
    (hf : saveToString cfg t.ops t.x e = .ok f) {k : ElemKind} (hk : LibKind k) : LoadsAs t k (loadFromString cfg k.ops f) := by
  by_cases hd : k.ops.dtype = t.ops.dtype
  · have hkt : k = kindOf t := libKind_dtype hk (storable_libKind ht) hd
    subst hkt
    obtain ⟨f', h1, h2⟩ := storable_roundtrip ht
    rw [hf, Except.ok.injEq] at h1
    subst h1
    have h3 : loadFromString cfg (kindOf t).ops f = .ok t.x := h2
    rw [h3]
    exact .same rfl
  · obtain ⟨f', info, h1, h2, h3⟩ := storable_peek ht
    rw [hf, Except.ok.injEq] at h1
    subst h1
    have hi : info.dtype = some t.ops.dtype ∧ info.fortranOrder ≠ none := by
      cases h2 with
      | fixed => exact ⟨rfl, by simp⟩
      | wide => exact ⟨rfl, by simp⟩
    have hs : 0 < k.ops.sizeof := by
      cases hk with
      | fixed u hu => revert hu; cases u <;> decide
      | wide => decide
    unfold peekString at h3
    match hp : peek cfg (IStream.ofBytes f) with
    | (.error er, s1) => rw [hp] at h3; simp at h3
    | (.ok info', s1) =>
      rw [hp, Except.ok.injEq] at h3
      have := C08_wrong_type_throws cfg k.ops _ s1 info' hp t.ops.dtype (by rw [h3]; exact hi.1) (Ne.symm hd) (by rw [h3]; exact hi.2) hs
      unfold loadFromString
      rw [this]
      split
      · exact .other _ hd
      · exact .other _ hd

/-! ### The whole disk -/

/-- The file system holds what the disk of the specification says. -/
structure Holds (cfg : Cfg) (codec : Codec) (a : Access) (d : Disk) (fs : Fs) : Prop where
  readable : ∀ p, fs.readable p = a.readable p
  writable : ∀ p, fs.writable p = a.writable p
  room : fs.room = none
  nothing : ∀ p, d p = none → fs.file p = none
  array : ∀ p e t, d p = some (.array e t) → Storable cfg e t ∧ ∃ f, saveToString cfg t.ops t.x e = .ok f ∧ fs.file p = some f
  archive : ∀ p e puts, d p = some (.archive e puts) → ∃ bytes, IsArchive cfg codec e puts bytes ∧ fs.file p = some bytes

theorem Holds.put {cfg : Cfg} {codec : Codec} {a : Access} {d : Disk} {fs : Fs} (h : Holds cfg codec a d fs) (p : Bytes)
    (c : Content) (bytes : Bytes)
    (h1 : ∀ e t, c = .array e t → Storable cfg e t ∧ saveToString cfg t.ops t.x e = .ok bytes)
    (h2 : ∀ e puts, c = .archive e puts → IsArchive cfg codec e puts bytes) :
    Holds cfg codec a (fun q => if q = p then some c else d q) ((fs.put p []).put p bytes) where
  readable := h.readable
  writable := h.writable
  room := h.room
  nothing q hq := by
    by_cases hqp : q = p
    · simp [hqp] at hq
    · simp only [if_neg hqp] at hq
      simpa [Fs.put, hqp] using h.nothing q hq
  array q e t hq := by
    by_cases hqp : q = p
    · simp only [if_pos hqp, Option.some.injEq] at hq
      obtain ⟨k1, k2⟩ := h1 e t hq
      exact ⟨k1, bytes, k2, by simp [Fs.put, hqp]⟩
    · simp only [if_neg hqp] at hq
      obtain ⟨k1, f, k2, k3⟩ := h.array q e t hq
      exact ⟨k1, f, k2, by simpa [Fs.put, hqp] using k3⟩
  archive q e puts hq := by
    by_cases hqp : q = p
    · simp only [if_pos hqp, Option.some.injEq] at hq
      exact ⟨bytes, h2 e puts hq, by simp [Fs.put, hqp]⟩
    · simp only [if_neg hqp] at hq
      obtain ⟨bytes', k1, k2⟩ := h.archive q e puts hq
      exact ⟨bytes', k1, by simpa [Fs.put, hqp] using k2⟩

theorem after_cons (cfg : Cfg) (codec : Codec) (r : Reader) (c : RdCall) (calls : List RdCall) :
    Reader.after cfg codec r (c :: calls) = Reader.after cfg codec (c.run cfg codec r) calls := rfl

theorem outs_meet {cfg : Cfg} {codec : Codec} {e : Endian} {puts : List (Bytes × AnyTensor)} {r : Reader}
    (h : ∀ calls : List RdCall,
      (∀ name t, lookup puts name = some t → ∃ f, Storable cfg e t ∧ saveToString cfg t.ops t.x e = .ok f ∧
        (Reader.readFile codec name (r.after cfg codec calls)).1 = .ok f) ∧
      (∀ name, lookup puts name = none → (Reader.readFile codec name (r.after cfg codec calls)).1 = .error noName) ∧
      (∀ name, (r.after cfg codec calls).contains name = true ↔ ∃ p ∈ puts, storedName p.1 = name) ∧
      (r.after cfg codec calls).keys.Perm (puts.map fun p => storedName p.1) ∧ (r.after cfg codec calls).keys.Pairwise (· ≤ ·))
    (calls : List RdCall) (hc : ∀ c ∈ calls, ProperRd c) :
    List.Forall₂ (RdMeets cfg e puts) calls (r.outs cfg codec calls) := by
  induction calls generalizing r with
  | nil => exact .nil
  | cons c calls ih =>
    unfold Reader.outs
    refine .cons ?_ (ih (fun calls => by rw [← after_cons]; exact h (c :: calls)) fun c' hc' => hc c' (List.mem_cons_of_mem _ hc'))
    obtain ⟨k1, k2, k3, k4, k5⟩ := h []
    change (∀ name t, lookup puts name = some t → ∃ f, Storable cfg e t ∧ saveToString cfg t.ops t.x e = .ok f ∧
        (Reader.readFile codec name r).1 = .ok f) at k1
    change (∀ name, lookup puts name = none → (Reader.readFile codec name r).1 = .error noName) at k2
    have hp := hc c (by simp)
    cases c with
    | read α ops name =>
      show RdMeets cfg e puts (.read α ops name) (.read α (Reader.read cfg codec ops name r).1)
      rw [reader_read_eq]
      match hl : lookup puts name with
      | none => rw [k2 name hl]; exact .readNone hl
      | some t =>
        obtain ⟨f, g1, g2, g3⟩ := k1 name t hl
        rw [g3]
        exact .read hl (reads_saved g1 g2 hp)
    | peek name =>
      show RdMeets cfg e puts (.peek name) (.peek (Reader.peek cfg codec name r).1)
      rw [reader_peek_eq]
      match hl : lookup puts name with
      | none => rw [k2 name hl]; exact .peekNone hl
      | some t =>
        obtain ⟨f, g1, g2, g3⟩ := k1 name t hl
        obtain ⟨f', info, q1, q2, q3⟩ := storable_peek g1
        rw [g2, Except.ok.injEq] at q1
        subst q1
        rw [g3]
        show RdMeets cfg e puts (.peek name) (.peek (peekString cfg f))
        rw [q3]
        exact .peek hl q2
    | contains name => exact .contains (k3 name)
    | keys => exact .keys k4 k5

theorem miniz_size {cfg : Cfg} {j : Junk} {n : Nat} (hn : 2 ^ 36 ≤ n) (hbig : cfg.nativeBig = false) {f z : Bytes} (hf : f.length < 2 ^ 32)
    (h : (miniz cfg j n).deflate f = .ok z) : z.length ≤ 3 * f.length + 9 := by
  refine C58_size (!cfg.ndebug) j f hf n (by omega) z ?_
  simpa only [miniz, hbig] using h

theorem step_meets {cfg : Cfg} {j : Junk} {n : Nat} (hn : 2 ^ 36 ≤ n) {a : Access} {d : Disk} {fs : Fs}
    (h : Holds cfg (miniz cfg j n) a d fs) (c : PCall) (hc : Proper cfg a d c) :
    Meets cfg a d c (c.run cfg (miniz cfg j n) fs).1 ∧ Holds cfg (miniz cfg j n) a (next a d c) (c.run cfg (miniz cfg j n) fs).2 := by
  have hclosed : ∀ p, a.readable p = false ∨ d p = none → fs.file p = none ∨ fs.readable p = false := by
    intro p hp
    rcases hp with hp | hp
    · exact .inr (by rw [h.readable, hp])
    · exact .inl (h.nothing p hp)
  cases c with
  | save t e p =>
    have ht : Storable cfg e t := hc
    cases hw : a.writable p with
    | false =>
      have e1 := (C53_unopened cfg t.ops t.x e fs p).1 (by rw [h.writable, hw])
      have e2 : (PCall.save t e p).run cfg (miniz cfg j n) fs = (.save (.error noPath), fs) := by
        simp only [PCall.run, e1, noPath]
      rw [e2]
      refine ⟨.saveNot hw, ?_⟩
      simp only [next, hw, Bool.false_eq_true, if_false]
      exact h
    | true =>
      obtain ⟨f, h1, -⟩ := storable_roundtrip ht
      have hopen : fs.openOut p = (OStream.empty, fs.put p []) := by
        unfold Fs.openOut; rw [if_pos (by rw [h.writable, hw]), h.room]; rfl
      have e2 : (PCall.save t e p).run cfg (miniz cfg j n) fs = (.save (.ok ()), (fs.put p []).put p f) := by
        unfold saveToString at h1
        match hs : save cfg t.ops t.x e OStream.empty with
        | .error er => rw [hs] at h1; simp [Except.map] at h1
        | .ok o =>
          rw [hs] at h1
          simp only [Except.map, Except.ok.injEq] at h1
          simp only [PCall.run, savePath, hopen, hs]
          rw [← h1]
          rfl
      rw [e2]
      refine ⟨.save hw, ?_⟩
      simp only [next, hw, if_true]
      refine h.put p _ f ?_ ?_
      · intro e' t' he
        injection he with he1 he2
        subst he1 he2
        exact ⟨ht, h1⟩
      · intro e' puts he
        cases he
  | load k p =>
    obtain ⟨hk, hd⟩ := hc
    have hn' : next a d (.load k p) = d := rfl
    rw [hn']
    by_cases hq : a.readable p = false ∨ d p = none
    · have e1 := (C53_unopened cfg k.ops ⟨[], [], false, .int8, []⟩ .native fs p).2 (hclosed p hq)
      have e2 : (PCall.load k p).run cfg (miniz cfg j n) fs = (.load k.α (.error noPath), fs) := by
        simp only [PCall.run, e1.1, noPath]
      rw [e2]
      exact ⟨.loadNot hq, h⟩
    · have hr : a.readable p = true := by
        cases hx : a.readable p
        · exact absurd (.inl hx) hq
        · rfl
      rcases hd hr with hx | ⟨e, t, hx⟩
      · exact absurd (.inr hx) hq
      · obtain ⟨g1, f, g2, g3⟩ := h.array p e t hx
        have e1 := (C53_like_streams cfg k.ops (libKind_libOps hk) fs p f g3 (by rw [h.readable, hr])).1
        have e2 : (PCall.load k p).run cfg (miniz cfg j n) fs = (.load k.α (loadFromString cfg k.ops f), fs) := by
          simp only [PCall.run, e1]
        rw [e2]
        exact ⟨.load hr hx (reads_saved g1 g2 hk), h⟩
  | peek p =>
    have hd : a.readable p = true → d p = none ∨ ∃ e t, d p = some (.array e t) := hc
    have hn' : next a d (.peek p) = d := rfl
    rw [hn']
    by_cases hq : a.readable p = false ∨ d p = none
    · have e1 := (C53_unopened cfg wideOps ⟨[], [], false, .int8, []⟩ .native fs p).2 (hclosed p hq)
      have e2 : (PCall.peek p).run cfg (miniz cfg j n) fs = (.peek (.error noPath), fs) := by
        simp only [PCall.run, e1.2, noPath]
      rw [e2]
      exact ⟨.peekNot hq, h⟩
    · have hr : a.readable p = true := by
        cases hx : a.readable p
        · exact absurd (.inl hx) hq
        · rfl
      rcases hd hr with hx | ⟨e, t, hx⟩
      · exact absurd (.inr hx) hq
      · obtain ⟨g1, f, g2, g3⟩ := h.array p e t hx
        have e1 := (C53_like_streams cfg wideOps .wide fs p f g3 (by rw [h.readable, hr])).2
        obtain ⟨f', info, q1, q2, q3⟩ := storable_peek g1
        rw [g2, Except.ok.injEq] at q1
        subst q1
        have e2 : (PCall.peek p).run cfg (miniz cfg j n) fs = (.peek (.ok info), fs) := by
          simp only [PCall.run, e1, q3]
        rw [e2]
        exact ⟨.peek hr hx q2, h⟩
  | pack method e p puts =>
    have hf : Packable cfg method e puts := hc
    obtain ⟨size, hs1, hs2⟩ := hf.size
    have hm : method < 2 ^ 16 := by
      rcases hf.way with h | h
      · rw [h]; decide
      · rw [h.1]; decide
    have key : (∀ p ∈ puts, ∀ f, saveToString cfg p.2.ops p.2.x e = .ok f → GivesBack (miniz cfg j n) method f) ∧
        (∀ p ∈ puts, ∀ f d, saveToString cfg p.2.ops p.2.x e = .ok f → compressWith (miniz cfg j n) method f = .ok d →
          d.length ≤ packed method (size p)) := by
      rcases hf.way with rfl | ⟨rfl, hbig, hsafe⟩
      · constructor
        · intro q hq f hqf
          refine readBack_stored _ ?_
          have h1 := hs1 q hq f hqf
          have h2 : 50 + (storedName q.1).length + packed STORED (size q) ≤
              (puts.map fun p => 50 + (storedName p.1).length + packed STORED (size p)).sum :=
            List.single_le_sum (by intro x _; omega) _ (List.mem_map.2 ⟨q, hq, rfl⟩)
          have h3 : packed STORED (size q) = size q := if_pos rfl
          omega
        · intro q hq f d hqf hd
          rw [compressWith, if_pos rfl, Except.ok.injEq] at hd
          rw [packed, if_pos rfl, ← hd]
          exact hs1 q hq f hqf
      · constructor
        · exact fun q hq f hqf => miniz_givesBack cfg j n hn hbig f (hsafe q hq f hqf)
        · intro q hq f d hqf hd
          have hle := (hsafe q hq f hqf).le
          have h1 := hs1 q hq f hqf
          have hz : d.length ≤ 3 * f.length + 9 := by
            rw [compressWith, if_neg (by decide), if_pos rfl] at hd
            exact miniz_size hn hbig (by omega) hd
          rw [packed, if_neg (by decide)]
          omega
    obtain ⟨k1, k2⟩ := pack_archive hm hf.storable hf.count hf.names key.1 (fun p => packed method (size p)) key.2 hs2
    cases hw : a.writable p with
    | false =>
      have e1 := C54_writer_unopened cfg (miniz cfg j n) method e fs p (by rw [h.writable, hw]) (puts.map fun p => .write p.2 p.1)
      rw [k1] at e1
      have e2 : (PCall.pack method e p puts).run cfg (miniz cfg j n) fs = (.pack (puts.map fun _ => .ok ()), fs) := by
        simp only [PCall.run, e1]
      rw [e2]
      refine ⟨.pack, ?_⟩
      simp only [next, hw, Bool.false_eq_true, if_false]
      exact h
    | true =>
      have hopen : fs.openOut p = (OStream.empty, fs.put p []) := by
        unfold Fs.openOut; rw [if_pos (by rw [h.writable, hw]), h.room]; rfl
      have e1 : npzWriteScope cfg (miniz cfg j n) method e p (puts.map fun p => .write p.2 p.1) fs =
          (.ok (puts.map fun _ => .ok ()), (fs.put p []).put p (Writer.destroy (Writer.after cfg (miniz cfg j n)
            (Writer.newFile OStream.empty method e) (puts.map fun p => .write p.2 p.1))).2.output.buf) := by
        unfold npzWriteScope
        simp only [hopen, k1]
        rfl
      have e2 : (PCall.pack method e p puts).run cfg (miniz cfg j n) fs = (.pack (puts.map fun _ => .ok ()), (fs.put p []).put p
          (Writer.destroy (Writer.after cfg (miniz cfg j n) (Writer.newFile OStream.empty method e)
            (puts.map fun p => .write p.2 p.1))).2.output.buf) := by
        simp only [PCall.run, e1]
      rw [e2]
      refine ⟨.pack, ?_⟩
      simp only [next, hw, if_true]
      refine h.put p _ _ ?_ ?_
      · intro e' t' he
        cases he
      · intro e' puts' he
        injection he with he1 he2
        subst he1 he2
        exact k2
  | unpack p calls =>
    obtain ⟨hk, hd⟩ := hc
    have hn' : next a d (.unpack p calls) = d := rfl
    rw [hn']
    by_cases hq : a.readable p = false ∨ d p = none
    · have e1 := C54_reader_unopened fs p (hclosed p hq)
      have e2 : (PCall.unpack p calls).run cfg (miniz cfg j n) fs =
          (.unpack (.error (.throw (.invalidArgument .fileNotFound))), fs) := by
        simp only [PCall.run, e1]
      rw [e2]
      exact ⟨.unpackNot hq, h⟩
    · have hr : a.readable p = true := by
        cases hx : a.readable p
        · exact absurd (.inl hx) hq
        · rfl
      rcases hd hr with hx | ⟨e, puts, hx⟩
      · exact absurd (.inr hx) hq
      · obtain ⟨bytes, ⟨r, o1, o2⟩, g2⟩ := h.archive p e puts hx
        have e1 : npzReadPath p fs = (.ok r, fs) := by
          unfold npzReadPath
          simp only []
          rw [Fs.openIn_file g2 (by rw [h.readable, hr]), o1]
        have e2 : (PCall.unpack p calls).run cfg (miniz cfg j n) fs = (.unpack (.ok (r.outs cfg (miniz cfg j n) calls)), fs) := by
          simp only [PCall.run, e1]
        rw [e2]
        exact ⟨.unpack hr hx (outs_meet o2 calls hk), h⟩

/-- **C76**. A program that saves, loads and peeks at arrays on paths and writes and reads archives on paths, of any length and in any
order, on any file system whose device does not fill up. As long as what it saves can be saved and what it reads is what it has written
there last (or does not exist, or cannot be opened), every call gives what the specification `Meets` says: the array last saved under the
path, the tensor last written under the name to the archive last written to the path, an exception for another element type, for a path that cannot be opened and for
a name that is not there. Nothing else is ever returned, and there is no undefined behaviour. -/
theorem C76_programs (cfg : Cfg) (j : Junk) (n : Nat) (hn : 2 ^ 36 ≤ n) (fs : Fs) (hroom : fs.room = none) (calls : List PCall)
    (hc : ProperAll cfg ⟨fs.readable, fs.writable⟩ (fun p => (fs.file p).map fun _ => .foreign) calls) :
    MeetsAll cfg ⟨fs.readable, fs.writable⟩ (fun p => (fs.file p).map fun _ => .foreign) calls
      (PCall.runAll cfg (miniz cfg j n) calls fs) := by
  have h0 : Holds cfg (miniz cfg j n) ⟨fs.readable, fs.writable⟩ (fun p => (fs.file p).map fun _ => .foreign) fs :=
    { readable := fun _ => rfl
      writable := fun _ => rfl
      room := hroom
      nothing := fun p hp => by simpa using hp
      array := fun p e t hp => by
        match hx : fs.file p with
        | none => rw [hx] at hp; cases hp
        | some b => rw [hx] at hp; cases hp
      archive := fun p e t hp => by
        match hx : fs.file p with
        | none => rw [hx] at hp; cases hp
        | some b => rw [hx] at hp; cases hp }
  generalize (⟨fs.readable, fs.writable⟩ : Access) = a at hc h0 ⊢
  generalize (fun p => (fs.file p).map fun _ => Content.foreign) = d at hc h0 ⊢
  clear hroom
  induction calls generalizing d fs with
  | nil => rfl
  | cons c calls ih =>
    obtain ⟨h1, h2⟩ := step_meets hn h0 c hc.1
    exact ⟨_, _, rfl, h1, ih _ _ hc.2 h2⟩

/-! ### Any calls -/

theorem run_frame (cfg : Cfg) (codec : Codec) (c : PCall) (fs : Fs) :
    (∀ q, target c ≠ some q → (c.run cfg codec fs).2.file q = fs.file q) ∧ (c.run cfg codec fs).2.readable = fs.readable ∧
    (c.run cfg codec fs).2.writable = fs.writable ∧ (c.run cfg codec fs).2.room = fs.room := by
  have hop : ∀ p, (∀ q, some p ≠ some q → (fs.openOut p).2.file q = fs.file q) ∧ (fs.openOut p).2.readable = fs.readable ∧
      (fs.openOut p).2.writable = fs.writable ∧ (fs.openOut p).2.room = fs.room := by
    intro p
    unfold Fs.openOut
    split
    · refine ⟨fun q hq => ?_, rfl, rfl, rfl⟩
      have : q ≠ p := fun h => hq (by rw [h])
      simp [Fs.put, this]
    · exact ⟨fun _ _ => rfl, rfl, rfl, rfl⟩
  have hput : ∀ p bs (fs' : Fs), ((∀ q, some p ≠ some q → fs'.file q = fs.file q) ∧ fs'.readable = fs.readable ∧
      fs'.writable = fs.writable ∧ fs'.room = fs.room) → (∀ q, some p ≠ some q → (fs'.put p bs).file q = fs.file q) ∧
      (fs'.put p bs).readable = fs.readable ∧ (fs'.put p bs).writable = fs.writable ∧ (fs'.put p bs).room = fs.room := by
    intro p bs fs' h
    refine ⟨fun q hq => ?_, h.2⟩
    have : q ≠ p := fun h => hq (by rw [h])
    simp only [Fs.put, this, if_false]
    exact h.1 q hq
  cases c with
  | save t e p =>
    simp only [target, PCall.run, savePath]
    split
    · exact hop p
    · split
      · exact hput p _ _ (hop p)
      · exact hop p
  | load k p =>
    simp only [PCall.run, loadPath]
    split <;> exact ⟨fun _ _ => rfl, rfl, rfl, rfl⟩
  | peek p =>
    simp only [PCall.run, peekPath]
    split <;> exact ⟨fun _ _ => rfl, rfl, rfl, rfl⟩
  | pack method e p puts =>
    simp only [target, PCall.run, npzWriteScope]
    split
    · exact hput p _ _ (hop p)
    · exact hop p
  | unpack p calls =>
    have e : ((PCall.unpack p calls).run cfg codec fs).2 = fs := rfl
    rw [e]
    exact ⟨fun _ _ => rfl, rfl, rfl, rfl⟩

theorem after_frame (cfg : Cfg) (codec : Codec) (calls : List PCall) (fs : Fs) :
    (∀ q, (∀ c ∈ calls, target c ≠ some q) → (PCall.after cfg codec calls fs).file q = fs.file q) ∧
    (PCall.after cfg codec calls fs).readable = fs.readable ∧ (PCall.after cfg codec calls fs).writable = fs.writable ∧
    (PCall.after cfg codec calls fs).room = fs.room := by
  induction calls generalizing fs with
  | nil => exact ⟨fun _ _ => rfl, rfl, rfl, rfl⟩
  | cons c calls ih =>
    obtain ⟨h1, h2, h3, h4⟩ := run_frame cfg codec c fs
    obtain ⟨i1, i2, i3, i4⟩ := ih (c.run cfg codec fs).2
    refine ⟨fun q hq => ?_, i2.trans h2, i3.trans h3, i4.trans h4⟩
    exact (i1 q fun c' hc' => hq c' (List.mem_cons_of_mem _ hc')).trans (h1 q (hq c (by simp)))

/-- **C76**, any calls. Whatever calls a program makes, with whatever outcomes (files that are not arrays, archives beyond the limits, tensors that
cannot be saved): files it does not save to or open a writer on keep their contents. -/
theorem C76_others (cfg : Cfg) (codec : Codec) (calls : List PCall) (fs : Fs) (p : Bytes) (h : ∀ c ∈ calls, target c ≠ some p) :
    (PCall.after cfg codec calls fs).file p = fs.file p := (after_frame cfg codec calls fs).1 p h

/-- **C76**, any calls. Save an array under a path, after any calls: as long as no later call saves to that path or opens a writer on
it, `load` of the path gives the array back, whatever the other calls were and came to. -/
theorem C76_last_save (cfg : Cfg) (codec : Codec) (before later : List PCall) (t : AnyTensor) (e : Endian) (p : Bytes) (fs : Fs)
    (ht : Storable cfg e t) (hw : fs.writable p = true) (hr : fs.readable p = true) (hroom : fs.room = none)
    (hl : ∀ c ∈ later, target c ≠ some p) :
    (loadPath cfg t.ops p (PCall.after cfg codec (before ++ .save t e p :: later) fs)).1 = .ok t.x := by
  obtain ⟨-, b2, b3, b4⟩ := after_frame cfg codec before fs
  unfold PCall.after at b2 b3 b4 ⊢
  rw [List.foldl_append, List.foldl_cons]
  generalize List.foldl _ fs before = fs1 at b2 b3 b4 ⊢
  obtain ⟨fs2, bytes, h1, -, h3, -, h5, -⟩ := C53_save_load cfg e t ht fs1 p (by rw [b3, hw]) (by rw [b2, hr]) (by rw [b4, hroom])
  have e1 : ((PCall.save t e p).run cfg codec fs1).2 = fs2 := by simp only [PCall.run, h1]
  rw [e1]
  obtain ⟨c1, c2, -, -⟩ := after_frame cfg codec later fs2
  unfold PCall.after at c1 c2
  have ho : LibOps t.ops := by
    cases ht with
    | fixed dt hd => exact .fixed dt hd
    | wide => exact .wide
  have hr2 : fs2.readable p = true := by
    have := (run_frame cfg codec (.save t e p) fs1).2.1
    rw [e1] at this
    rw [this, b2, hr]
  have k1 := (C53_like_streams cfg t.ops ho fs2 p bytes h3 hr2).1
  have k2 := (C53_like_streams cfg t.ops ho _ p bytes (by rw [c1 p hl, h3]) (by rw [c2, hr2])).1
  rw [k2]
  rw [h5] at k1
  exact (congrArg Prod.fst k1).symm

/-! ### What the specification says -/

theorem loadsAs_same {t : AnyTensor} {r : Except Err (Tensor (kindOf t).α)} (h : LoadsAs t (kindOf t) r) :
    r = .ok t.x := by
  cases h with
  | same h => rfl
  | other err h => exact absurd rfl h

theorem loadsAs_other {t : AnyTensor} {k : ElemKind} {r : Except Err (Tensor k.α)} (h : LoadsAs t k r)
    (hk : k.ops.dtype ≠ t.ops.dtype) : ∃ err, r = .error (.throw err) := by
  cases h with
  | same h => exact absurd (by rw [h]; rfl) hk
  | other err h => exact ⟨err, rfl⟩

theorem meets_load {cfg : Cfg} {a : Access} {d : Disk} {k : ElemKind} {p : Bytes} {o : POut} {e : Endian} {t : AnyTensor}
    (h : Meets cfg a d (.load k p) o) (hd : d p = some (.array e t)) (hr : a.readable p = true) :
    ∃ r, LoadsAs t k r ∧ o = .load k.α r := by
  cases h with
  | load h1 h2 h3 =>
    rw [hd] at h2
    injection h2 with h2
    injection h2 with h4 h5
    subst h5
    exact ⟨_, h3, rfl⟩
  | loadNot h1 => rw [hd, hr] at h1; simp at h1

theorem meets_unpack {cfg : Cfg} {a : Access} {d : Disk} {calls : List RdCall} {p : Bytes} {o : POut} {e : Endian}
    {puts : List (Bytes × AnyTensor)} (h : Meets cfg a d (.unpack p calls) o) (hd : d p = some (.archive e puts))
    (hr : a.readable p = true) : ∃ outs, List.Forall₂ (RdMeets cfg e puts) calls outs ∧ o = .unpack (.ok outs) := by
  cases h with
  | unpack h1 h2 h3 =>
    rw [hd] at h2
    injection h2 with h2
    injection h2 with h4 h5
    subst h4 h5
    exact ⟨_, h3, rfl⟩
  | unpackNot h1 => rw [hd, hr] at h1; simp at h1

theorem rdMeets_read {cfg : Cfg} {e : Endian} {puts : List (Bytes × AnyTensor)} {α : Type} {ops : ElemOps α} {name : Bytes} {o : RdOut}
    {t : AnyTensor} (h : RdMeets cfg e puts (.read α ops name) o) (hl : lookup puts name = some t) :
    ∃ r, LoadsAs t ⟨α, ops⟩ r ∧ o = .read α r := by
  cases h with
  | read h1 h2 =>
    rw [hl] at h1
    injection h1 with h1
    subst h1
    exact ⟨_, h2, rfl⟩
  | readNone h1 => rw [hl] at h1; cases h1

/-! ### A program -/

/-- Save an array and load it, as what it is and as something else; replace a file of unknown contents by a compressed archive, and read
that; try a path that cannot be written, and one where nothing is. -/
def exProgram : List PCall :=
  [.save ⟨Elem, fixedOps .int16, exTensor⟩ .little b!"/b", .peek b!"/b", .load ⟨Elem, fixedOps .int16⟩ b!"/b",
   .pack DEFLATED .little b!"/a" exPuts, .load ⟨WStr, wideOps⟩ b!"/b", .save ⟨Elem, fixedOps .int16, exTensor⟩ .little b!"/dev/x",
   .unpack b!"/a" [.keys, .read WStr wideOps b!"y", .read Elem (fixedOps .int16) b!"x", .peek b!"z"],
   .load ⟨WStr, wideOps⟩ b!"/c"]

theorem exPuts_packable (method : Nat) (hm : method = STORED ∨ method = DEFLATED) : Packable exCfg method .little exPuts := by
  have small : ∀ p ∈ exPuts, ∀ f, saveToString exCfg p.2.ops p.2.x .little = .ok f → f.length ≤ 1000 := by
    intro p hp f hf
    simp only [exPuts, List.mem_cons, List.not_mem_nil, or_false] at hp
    have key : ∀ (r : Except Err Bytes), r = .ok f → r.toOption.getD [] = f := by rintro _ rfl; rfl
    rw [← key _ hf]
    rcases hp with rfl | rfl | rfl <;> decide +kernel
  refine ⟨exPuts_storable, by decide, by decide, ?_, fun _ => 1000, small, ?_⟩
  · rcases hm with h | h
    · exact .inl h
    · exact .inr ⟨h, rfl, fun p hp f hf => .inl (by have := small p hp f hf; omega)⟩
  · rcases hm with rfl | rfl <;> decide

theorem exProgram_proper : ProperAll exCfg ⟨exFs.readable, exFs.writable⟩ (fun p => (exFs.file p).map fun _ => .foreign) exProgram := by
  have hx : Storable exCfg .little ⟨Elem, fixedOps .int16, exTensor⟩ :=
    exPuts_storable (b!"x", ⟨Elem, fixedOps .int16, exTensor⟩) (by simp [exPuts])
  refine ⟨hx, fun _ => .inr ⟨_, _, rfl⟩, ⟨.fixed _ (by decide), fun _ => .inr ⟨_, _, rfl⟩⟩, exPuts_packable _ (.inr rfl),
    ⟨.wide, fun _ => .inr ⟨_, _, rfl⟩⟩, hx, ⟨?_, fun _ => .inr ⟨_, _, rfl⟩⟩, ⟨.wide, fun _ => .inl rfl⟩, trivial⟩
  intro c hc
  simp only [List.mem_cons, List.not_mem_nil, or_false] at hc
  rcases hc with rfl | rfl | rfl | rfl
  · trivial
  · exact .wide
  · exact .fixed _ (by decide)
  · trivial

/-- What the program gives, from the theorem. -/
example (j : Junk) : ∃ info names err err',
    PCall.runAll exCfg (miniz exCfg j (2 ^ 37)) exProgram exFs =
      [.save (.ok ()), .peek (.ok info), .load Elem (.ok exTensor), .pack [.ok (), .ok (), .ok ()],
       .load WStr (.error (.throw err)), .save (.error noPath),
       .unpack (.ok [.keys names, .read WStr (.ok exWide), .read Elem (.error (.throw err')), .peek (.error noName)]),
       .load WStr (.error noPath)] ∧ info.shape = exTensor.shape ∧ names.Perm [b!"x.npy", b!"y.npy", b!"x.npy"] := by
  have h := C76_programs exCfg j (2 ^ 37) (by norm_num) exFs rfl exProgram exProgram_proper
  generalize PCall.runAll exCfg (miniz exCfg j (2 ^ 37)) exProgram exFs = outs at h
  obtain ⟨o1, r1, rfl, h1, o2, r2, rfl, h2, o3, r3, rfl, h3, o4, r4, rfl, h4, o5, r5, rfl, h5, o6, r6, rfl, h6, o7, r7, rfl, h7,
    o8, r8, rfl, h8, rfl⟩ := h
  obtain ⟨q3, k3, rfl⟩ := meets_load (t := ⟨Elem, fixedOps .int16, exTensor⟩) h3 rfl rfl
  obtain ⟨q5, k5, rfl⟩ := meets_load (t := ⟨Elem, fixedOps .int16, exTensor⟩) h5 rfl rfl
  obtain ⟨q7, k7, rfl⟩ := meets_unpack (puts := exPuts) h7 rfl rfl
  have e3 : q3 = .ok exTensor := loadsAs_same (t := ⟨Elem, fixedOps .int16, exTensor⟩) k3
  obtain ⟨err, rfl⟩ := loadsAs_other k5 (by decide)
  obtain ⟨info, rfl, hinfo⟩ : ∃ info, o2 = .peek (.ok info) ∧ info.shape = exTensor.shape := by
    cases h2 with
    | peek g1 g2 g3 =>
      have g4 : some (Content.array .little ⟨Elem, fixedOps .int16, exTensor⟩) = some (Content.array _ _) := g2
      injection g4 with g4
      injection g4 with g5 g6
      subst g5 g6
      refine ⟨_, rfl, ?_⟩
      cases g3
      rfl
    | peekNot g1 =>
      rcases g1 with g1 | g1
      · exact absurd g1 (by decide)
      · cases g1
  cases k7 with
  | cons a1 k7 => cases k7 with
    | cons a2 k7 => cases k7 with
      | cons a3 k7 => cases k7 with
        | cons a4 k7 =>
          cases k7
          obtain ⟨p2, b2, rfl⟩ := rdMeets_read (t := ⟨WStr, wideOps, exWide⟩) a2 rfl
          obtain ⟨p3, b3, rfl⟩ := rdMeets_read (t := ⟨Elem, fixedOps .float64, exTensor2⟩) a3 rfl
          have e2 : p2 = .ok exWide := loadsAs_same (t := ⟨WStr, wideOps, exWide⟩) b2
          obtain ⟨err', rfl⟩ := loadsAs_other b3 (by decide)
          cases a1 with
          | keys c1 c2 =>
            refine ⟨info, _, err, err', ?_, hinfo, c1⟩
            cases a4 with
            | peek g1 g2 =>
              have g3 : lookup exPuts b!"z" = none := rfl
              rw [g3] at g1
              cases g1
            | peekNone g1 =>
              cases h1 with
              | save g => cases h4; cases h6 with
                | save g => exact absurd g (by decide)
                | saveNot g => cases h8 with
                  | load g1 g2 => cases g2
                  | loadNot g => rw [e2, e3]; rfl
              | saveNot g => exact absurd g (by decide)

end Npy
