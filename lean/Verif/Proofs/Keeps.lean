import Verif.Proofs.Hostile
/-! What reading never changes, and how one read depends on those before. -/

namespace Npy

/-- The contents and kind of the stream stay. -/
def Keeps {α : Type} (x : IM α) : Prop :=
  ∀ s, (x s).2.all = s.all ∧ (x s).2.isOpen = s.isOpen ∧ (x s).2.isFile = s.isFile

theorem Keeps.bind {α β : Type} {x : IM α} {f : α → IM β} (hx : Keeps x) (hf : ∀ a, Keeps (f a)) : Keeps (x >>= f) := by
  intro s
  rw [SM.bind_apply]
  have h1 := hx s
  match h : x s with
  | (.ok a, s') =>
    rw [h] at h1
    obtain ⟨a1, a2, a3⟩ := hf a s'
    obtain ⟨b1, b2, b3⟩ := h1
    exact ⟨a1.trans b1, a2.trans b2, a3.trans b3⟩
  | (.error e, s') => rw [h] at h1; exact h1

theorem Keeps.pure {α : Type} (a : α) : Keeps (Pure.pure a : IM α) := fun _ => ⟨rfl, rfl, rfl⟩
theorem Keeps.fail {α : Type} (e : Err) : Keeps (SM.fail e : IM α) := fun _ => ⟨rfl, rfl, rfl⟩
theorem Keeps.lift {α : Type} (e : Except Err α) : Keeps (SM.lift e : IM α) := fun _ => ⟨rfl, rfl, rfl⟩
theorem Keeps.ite {α : Type} {c : Prop} [Decidable c] {x y : IM α} (hx : Keeps x) (hy : Keeps y) :
    Keeps (if c then x else y) := by split <;> assumption

theorem keeps_getcFF : Keeps getcFF := by
  refine Keeps.bind ?_ fun a => ?_
  · intro s
    simp only [IStream.getc]
    split
    · split <;> exact ⟨rfl, rfl, rfl⟩
    · exact ⟨rfl, rfl, rfl⟩
  · cases a <;> exact Keeps.pure _

theorem keeps_readLE (k : Nat) : Keeps (readLE k) := by
  induction k with
  | zero => exact Keeps.pure _
  | succ k ih => exact keeps_getcFF.bind fun _ => ih.bind fun _ => Keeps.pure _

theorem keeps_read (n : Nat) : Keeps (IStream.read n) := by
  intro s
  simp only [IStream.read]
  split
  · split <;> exact ⟨rfl, rfl, rfl⟩
  · exact ⟨rfl, rfl, rfl⟩

theorem keeps_seekg (off : Int) : Keeps (IStream.seekg off) := by
  intro s
  simp only [IStream.seekg]
  split
  · exact ⟨rfl, rfl, rfl⟩
  · split
    · exact ⟨rfl, rfl, rfl⟩
    · split <;> exact ⟨rfl, rfl, rfl⟩

theorem keeps_seekgCur (off : Int) : Keeps (IStream.seekgCur off) := fun s => keeps_seekg _ s
theorem keeps_seekgEnd (off : Int) : Keeps (IStream.seekgEnd off) := fun s => keeps_seekg _ s

theorem keeps_assertSig (sig : Bytes) : Keeps (assertSig sig) :=
  (keeps_read 4).bind fun _ => Keeps.ite (Keeps.fail _) (Keeps.ite (Keeps.fail _) (Keeps.pure _))

theorem keeps_readName (n : Nat) : Keeps (readName n) := (keeps_read n).bind fun _ => Keeps.pure _

theorem keeps_readZip64Extra (h : FileEntry) (off : Bool) : Keeps (readZip64Extra h off) := by
  refine (keeps_readLE 2).bind fun tag => Keeps.ite (Keeps.fail _) ?_
  refine (keeps_readLE 2).bind fun n => ?_
  refine Keeps.bind (Keeps.ite ((keeps_readLE 8).bind fun _ => Keeps.pure _) (Keeps.pure _)) fun p => ?_
  refine Keeps.bind (Keeps.ite ((keeps_readLE 8).bind fun _ => Keeps.pure _) (Keeps.pure _)) fun q => ?_
  refine Keeps.bind (Keeps.ite ((keeps_readLE 8).bind fun _ => Keeps.pure _) (Keeps.pure _)) fun r => ?_
  exact Keeps.ite (Keeps.fail _) (Keeps.ite ((keeps_seekgCur _).bind fun _ => Keeps.pure _) (Keeps.pure _))

theorem keeps_readSharedHeader (h : FileEntry) : Keeps (readSharedHeader h) :=
  (keeps_readLE 2).bind fun _ => (keeps_readLE 2).bind fun _ => (keeps_readLE 4).bind fun _ => (keeps_readLE 4).bind fun _ =>
    (keeps_readLE 4).bind fun _ => (keeps_readLE 4).bind fun _ => (keeps_readLE 2).bind fun _ => Keeps.pure _

theorem keeps_readLocalHeader : Keeps readLocalHeader :=
  (keeps_assertSig _).bind fun _ => (keeps_readLE 2).bind fun _ => Keeps.ite (Keeps.fail _)
    ((keeps_readSharedHeader _).bind fun _ => (keeps_readLE 2).bind fun _ => (keeps_readName _).bind fun _ =>
      Keeps.ite (keeps_readZip64Extra _ _) (Keeps.pure _))

theorem keeps_readPayload (n : Nat) : Keeps (readPayload n) :=
  Keeps.ite (Keeps.fail _) ((keeps_read n).bind fun _ => Keeps.pure _)

theorem keeps_readFile (codec : Codec) (m : EntryMap) (name : Bytes) : Keeps (Npy.readFile codec m name) := by
  refine (Keeps.lift _).bind fun n => ?_
  cases m.lookup n with
  | none => exact Keeps.fail _
  | some entry =>
    exact (keeps_seekg _).bind fun _ => keeps_readLocalHeader.bind fun _ => Keeps.ite (Keeps.fail _)
      ((keeps_readPayload _).bind fun _ => (Keeps.lift _).bind fun _ => Keeps.ite (Keeps.fail _) (Keeps.pure _))

theorem reader_read_snd {α : Type} (cfg : Cfg) (codec : Codec) (ops : ElemOps α) (name : Bytes) (r : Reader) :
    (Reader.read cfg codec ops name r).2 = (Reader.readFile codec name r).2 := by
  unfold Reader.read
  rw [SM.bind_apply]
  match h : Reader.readFile codec name r with
  | (.ok b, s) => rfl
  | (.error e, s) => rfl

theorem reader_peek_snd (cfg : Cfg) (codec : Codec) (name : Bytes) (r : Reader) :
    (Reader.peek cfg codec name r).2 = (Reader.readFile codec name r).2 := by
  unfold Reader.peek
  rw [SM.bind_apply]
  match h : Reader.readFile codec name r with
  | (.ok b, s) => rfl
  | (.error e, s) => rfl

/-- The directory, the contents and the kind of stream survive every call. -/
theorem after_keeps (cfg : Cfg) (codec : Codec) (r : Reader) (calls : List RdCall) :
    (r.after cfg codec calls).entries = r.entries ∧ (r.after cfg codec calls).keys = r.keys ∧
      (r.after cfg codec calls).input.all = r.input.all ∧ (r.after cfg codec calls).input.isOpen = r.input.isOpen ∧
      (r.after cfg codec calls).input.isFile = r.input.isFile := by
  induction calls generalizing r with
  | nil => exact ⟨rfl, rfl, rfl, rfl, rfl⟩
  | cons c calls ih =>
    have step : ∀ r' : Reader, r'.entries = r.entries → r'.keys = r.keys → r'.input.all = r.input.all →
        r'.input.isOpen = r.input.isOpen → r'.input.isFile = r.input.isFile →
        ((r'.after cfg codec calls).entries = r.entries ∧ (r'.after cfg codec calls).keys = r.keys ∧
      (r'.after cfg codec calls).input.all = r.input.all ∧ (r'.after cfg codec calls).input.isOpen = r.input.isOpen ∧
      (r'.after cfg codec calls).input.isFile = r.input.isFile) := by
      intro r' h1 h2 h3 h4 h5
      obtain ⟨a, b, c, d, e⟩ := ih r'
      exact ⟨a.trans h1, b.trans h2, c.trans h3, d.trans h4, e.trans h5⟩
    have hrf : ∀ name, (Reader.readFile codec name r).2.entries = r.entries ∧ (Reader.readFile codec name r).2.keys = r.keys ∧
        (Reader.readFile codec name r).2.input.all = r.input.all ∧
        (Reader.readFile codec name r).2.input.isOpen = r.input.isOpen ∧
        (Reader.readFile codec name r).2.input.isFile = r.input.isFile := by
      intro name
      obtain ⟨a, b, c⟩ := keeps_readFile codec r.entries name r.input
      rw [readerReadFile_eq]
      exact ⟨rfl, rfl, a, b, c⟩
    cases c with
    | read α ops name =>
      obtain ⟨a, b, c, d, e⟩ := hrf name
      simp only [Reader.after, List.foldl_cons, RdCall.run, reader_read_snd]
      exact step _ a b c d e
    | peek name =>
      obtain ⟨a, b, c, d, e⟩ := hrf name
      simp only [Reader.after, List.foldl_cons, RdCall.run, reader_peek_snd]
      exact step _ a b c d e
    | contains name => exact step r rfl rfl rfl rfl rfl
    | keys => exact step r rfl rfl rfl rfl rfl

/-- A signature check on a stream that is not good is undefined. -/
theorem assertSig_bad {sig : Bytes} {s : IStream} (h : s.good = false) : (assertSig sig s).1 = .error .ub := by
  unfold assertSig
  have : IStream.read 4 s = (.ok [], s.setFail) := by simp [IStream.read, h]
  rw [SM.bind_ok this]
  simp

theorem readLocalHeader_bad {s : IStream} (h : s.good = false) : (readLocalHeader s).1 = .error .ub := by
  have := assertSig_bad (sig := LOCAL_HEADER_SIG) h
  unfold readLocalHeader
  rw [SM.bind_apply]
  match h2 : assertSig LOCAL_HEADER_SIG s with
  | (.ok a, s') => rw [h2] at this; simp at this
  | (.error e, s') => rw [h2] at this; simpa using this

/-- Reading depends on the contents only, as long as the stream has not failed. -/
theorem readFile_indep (codec : Codec) (m : EntryMap) (name : Bytes) {s t : IStream} (ha : s.all = t.all)
    (ho : s.isOpen = t.isOpen) (hf : s.isFile = t.isFile) (h1 : s.fail = false) (h2 : t.fail = false) :
    (Npy.readFile codec m name s).1 = (Npy.readFile codec m name t).1 := by
  unfold Npy.readFile
  rw [SM.bind_apply, SM.bind_apply, SM.lift_apply, SM.lift_apply]
  match resolveName m name with
  | .error e => rfl
  | .ok n =>
    simp only []
    match m.lookup n with
    | none => rfl
    | some entry =>
      simp only []
      rw [SM.bind_apply, SM.bind_apply]
      have key : IStream.seekg (toStreamoff entry.offset) s = IStream.seekg (toStreamoff entry.offset) t ∨
          ∃ s' t', IStream.seekg (toStreamoff entry.offset) s = (.ok (), s') ∧
            IStream.seekg (toStreamoff entry.offset) t = (.ok (), t') ∧ s'.good = false ∧ t'.good = false := by
        simp only [IStream.seekg, h1, h2, Bool.false_eq_true, if_false]
        by_cases hc : (decide (toStreamoff entry.offset < 0) || !t.isOpen) = true
        · right
          rw [ho, if_pos hc, if_pos hc]
          exact ⟨_, _, rfl, rfl, by simp [IStream.setFail, IStream.good], by simp [IStream.setFail, IStream.good]⟩
        · rw [ho, if_neg hc, if_neg hc, hf, ha]
          by_cases hd : (t.isFile || decide ((toStreamoff entry.offset).toNat ≤ t.all.length)) = true
          · left
            rw [if_pos hd, if_pos hd]
          · right
            rw [if_neg hd, if_neg hd]
            exact ⟨_, _, rfl, rfl, by simp [IStream.setFail, IStream.good], by simp [IStream.setFail, IStream.good]⟩
      rcases key with key | ⟨s', t', e1, e2, b1, b2⟩
      · rw [key]
      · rw [e1, e2]
        simp only []
        rw [SM.bind_apply, SM.bind_apply]
        have u1 := readLocalHeader_bad b1
        have u2 := readLocalHeader_bad b2
        match g1 : readLocalHeader s', g2 : readLocalHeader t' with
        | (.error x, _), (.error y, _) =>
          rw [g1] at u1; rw [g2] at u2
          simp only at u1 u2
          rw [u1, u2]
        | (.ok x, _), _ => rw [g1] at u1; simp at u1
        | (.error x, _), (.ok y, _) => rw [g2] at u2; simp at u2

/-! ### Directories of arbitrary archives -/

theorem seekg_good {off : Int} {s s' : IStream} (h : IStream.seekg off s = (.ok (), s')) (hg : s'.good = true) :
    s'.rest = s.all.drop off.toNat := by
  simp only [IStream.seekg] at h
  split at h
  · rename_i hf
    simp only [Prod.mk.injEq, true_and] at h
    rw [← h] at hg
    simp [IStream.good, hf] at hg
  · split at h
    · simp only [Prod.mk.injEq, true_and] at h
      rw [← h] at hg
      simp [IStream.good, IStream.setFail] at hg
    · split at h
      · simp only [Prod.mk.injEq, true_and] at h
        rw [← h]
      · simp only [Prod.mk.injEq, true_and] at h
        rw [← h] at hg
        simp [IStream.good, IStream.setFail] at hg

def KeepsTail {α : Type} (x : IM α) : Prop := ∀ s, s.Tail → (x s).2.Tail

theorem KeepsTail.bind {α β : Type} {x : IM α} {f : α → IM β} (hx : KeepsTail x) (hf : ∀ a, KeepsTail (f a)) :
    KeepsTail (x >>= f) := by
  intro s hs
  rw [SM.bind_apply]
  have h1 := hx s hs
  match h : x s with
  | (.ok a, s') => rw [h] at h1; exact hf a s' h1
  | (.error e, s') => rw [h] at h1; exact h1

theorem KeepsTail.pure {α : Type} (a : α) : KeepsTail (Pure.pure a : IM α) := fun _ h => h
theorem KeepsTail.fail {α : Type} (e : Err) : KeepsTail (SM.fail e : IM α) := fun _ h => h
theorem KeepsTail.ite {α : Type} {c : Prop} [Decidable c] {x y : IM α} (hx : KeepsTail x) (hy : KeepsTail y) :
    KeepsTail (if c then x else y) := by split <;> assumption

theorem tail_getcFF : KeepsTail getcFF := by
  refine KeepsTail.bind ?_ fun a => ?_
  · rintro s ⟨p, hp⟩
    simp only [IStream.getc]
    split
    · split
      · exact ⟨p, hp⟩
      · rename_i b r hr
        refine ⟨p + 1, ?_⟩
        simp only
        rw [← List.drop_drop, ← hp, hr]
        rfl
    · exact ⟨p, hp⟩
  · cases a <;> exact KeepsTail.pure _

theorem tail_readLE (k : Nat) : KeepsTail (readLE k) := by
  induction k with
  | zero => exact KeepsTail.pure _
  | succ k ih => exact tail_getcFF.bind fun _ => ih.bind fun _ => KeepsTail.pure _

theorem tail_read (n : Nat) : KeepsTail (IStream.read n) := by
  rintro s ⟨p, hp⟩
  simp only [IStream.read]
  split
  · split
    · exact ⟨p + n, by simp only; rw [hp, List.drop_drop]⟩
    · exact ⟨s.all.length, by simp⟩
  · exact ⟨p, hp⟩

theorem tail_seekg (off : Int) : KeepsTail (IStream.seekg off) := by
  rintro s ⟨p, hp⟩
  simp only [IStream.seekg]
  split
  · exact ⟨p, hp⟩
  · split
    · exact ⟨p, hp⟩
    · split
      · exact ⟨_, rfl⟩
      · exact ⟨p, hp⟩

theorem tail_assertSig (sig : Bytes) : KeepsTail (assertSig sig) :=
  (tail_read 4).bind fun _ => KeepsTail.ite (KeepsTail.fail _) (KeepsTail.ite (KeepsTail.fail _) (KeepsTail.pure _))

theorem tail_readZip64Extra (h : FileEntry) (off : Bool) : KeepsTail (readZip64Extra h off) := by
  refine (tail_readLE 2).bind fun tag => KeepsTail.ite (KeepsTail.fail _) ?_
  refine (tail_readLE 2).bind fun n => ?_
  refine KeepsTail.bind (KeepsTail.ite ((tail_readLE 8).bind fun _ => KeepsTail.pure _) (KeepsTail.pure _)) fun p => ?_
  refine KeepsTail.bind (KeepsTail.ite ((tail_readLE 8).bind fun _ => KeepsTail.pure _) (KeepsTail.pure _)) fun q => ?_
  refine KeepsTail.bind (KeepsTail.ite ((tail_readLE 8).bind fun _ => KeepsTail.pure _) (KeepsTail.pure _)) fun r => ?_
  exact KeepsTail.ite (KeepsTail.fail _)
    (KeepsTail.ite (KeepsTail.bind (fun s hs => tail_seekg _ s hs) fun _ => KeepsTail.pure _) (KeepsTail.pure _))

theorem tail_readSharedHeader (h : FileEntry) : KeepsTail (readSharedHeader h) :=
  (tail_readLE 2).bind fun _ => (tail_readLE 2).bind fun _ => (tail_readLE 4).bind fun _ => (tail_readLE 4).bind fun _ =>
    (tail_readLE 4).bind fun _ => (tail_readLE 4).bind fun _ => (tail_readLE 2).bind fun _ => KeepsTail.pure _

theorem tail_readCentralHeader : KeepsTail readCentralHeader :=
  (tail_assertSig _).bind fun _ => (tail_readLE 2).bind fun _ => (tail_readLE 2).bind fun _ => KeepsTail.ite (KeepsTail.fail _)
    ((tail_readSharedHeader _).bind fun _ => (tail_readLE 2).bind fun _ => (tail_readLE 2).bind fun _ =>
      (tail_readLE 2).bind fun _ => (tail_readLE 2).bind fun _ => (tail_readLE 4).bind fun _ => (tail_readLE 4).bind fun _ =>
      ((tail_read _).bind fun _ => KeepsTail.pure _).bind fun _ => KeepsTail.ite (tail_readZip64Extra _ _) (KeepsTail.pure _))

/-- The header at a position of the whole. -/
theorem centralAt_drop {b : Bytes} {p : Nat} {name : Bytes} {m c cs us o : Nat} (h : Spec.CentralAt (b.drop p) 0 name m c cs us o) :
    Spec.CentralAt b p name m c cs us o := by
  obtain ⟨h1, h2, h3, h4, h5, h6, h7⟩ := h
  rw [headerValues_drop] at h7
  simp only [leAt_drop, Nat.zero_add] at h2 h3 h4 h5 h7
  refine ⟨h1, h2, h3, h4, h5, fun hl => ?_, by rw [Nat.add_assoc]; exact h7⟩
  have := h6 (by rw [List.length_drop]; omega)
  rw [List.drop_drop] at this
  exact this

theorem localAt_drop {b : Bytes} {p : Nat} {name : Bytes} {m c cs us : Nat} (h : Spec.LocalAt (b.drop p) 0 name m c cs us) :
    Spec.LocalAt b p name m c cs us := by
  obtain ⟨h1, h2, h3, h4, h5, h6, h7⟩ := h
  rw [headerValues_drop] at h7
  simp only [leAt_drop, Nat.zero_add] at h2 h3 h4 h5 h7
  refine ⟨h1, h2, h3, h4, h5, fun hl => ?_, by rw [Nat.add_assoc]; exact h7⟩
  have := h6 (by rw [List.length_drop]; omega)
  rw [List.drop_drop] at this
  exact this

theorem localSize_drop (b : Bytes) (p : Nat) : Spec.localSize (b.drop p) 0 = Spec.localSize b p := by
  unfold Spec.localSize
  simp only [leAt_drop, Nat.zero_add, Nat.add_assoc]

/-- Reading the data of an entry. -/
theorem readPayload_at {n : Nat} {s s' : IStream} {r raw : Bytes} (hs : s.At r) (h : readPayload n s = (.ok raw, s')) :
    raw = r.take n ++ List.replicate (n - r.length) 0 := by
  unfold readPayload at h
  split at h
  · simp at h
  · obtain ⟨x, s6, h6, h7⟩ := SM.of_bind_ok h
    simp only [SM.pure_apply, Prod.mk.injEq, Except.ok.injEq] at h7
    rw [← h7.1]
    simp only [IStream.read] at h6
    rcases hs with ⟨hg, rfl⟩ | ⟨hg, rfl⟩
    · rw [if_pos hg] at h6
      split at h6
      · rename_i hn
        simp only [Prod.mk.injEq, Except.ok.injEq] at h6
        rw [← h6.1, List.length_take, Nat.min_eq_left hn, Nat.sub_self, Nat.sub_eq_zero_of_le hn]
      · rename_i hn
        simp only [Prod.mk.injEq, Except.ok.injEq] at h6
        rw [← h6.1, List.take_of_length_le (by omega)]
    · rw [if_neg (by rw [hg]; simp)] at h6
      simp only [Prod.mk.injEq, Except.ok.injEq] at h6
      rw [← h6.1]
      simp

/-- Every entry of the map comes from a central header in the archive. -/
def FromBytes (b : Bytes) (m : EntryMap) : Prop :=
  ∀ n e, (n, e) ∈ m → e.filename = n ∧ e.offset < 2 ^ 64 ∧ ∃ p, Spec.CentralAt b p n e.compressionMethod e.crc32 e.compressedSize e.uncompressedSize e.offset

theorem readEntriesLoop_inv (n : Nat) {m m' : EntryMap} {ks ks' : List Bytes} {s s' : IStream} (ht : s.Tail)
    (hm : FromBytes s.all m) (h : readEntriesLoop n m ks s = (.ok (m', ks'), s')) : FromBytes s.all m' ∧ s'.all = s.all := by
  induction n generalizing m ks s with
  | zero =>
    simp only [readEntriesLoop, SM.pure_apply, Prod.mk.injEq, Except.ok.injEq] at h
    obtain ⟨⟨rfl, rfl⟩, rfl⟩ := h
    exact ⟨hm, rfl⟩
  | succ n ih =>
    rw [readEntriesLoop] at h
    obtain ⟨e, s1, h1, h2⟩ := SM.of_bind_ok h
    obtain ⟨g1, g2, g4, g3⟩ := readCentralHeader_inv h1
    have ht1 : s1.Tail := by have := tail_readCentralHeader s ht; rw [h1] at this; exact this
    obtain ⟨p, hp⟩ := ht
    rw [hp] at g2
    have hm1 : FromBytes s1.all ((e.filename, e) :: m) := by
      rw [g3]
      intro n' e' he
      rcases List.mem_cons.1 he with heq | he
      · simp only [Prod.mk.injEq] at heq
        obtain ⟨rfl, rfl⟩ := heq
        exact ⟨rfl, g4, p, centralAt_drop g2⟩
      · exact hm n' e' he
    obtain ⟨k1, k2⟩ := ih ht1 hm1 h2
    rw [g3] at k1 k2
    exact ⟨k1, k2⟩

theorem mem_of_lookup {m : EntryMap} {n : Bytes} {e : FileEntry} (h : m.lookup n = some e) : (n, e) ∈ m := by
  induction m with
  | nil => simp at h
  | cons x m ih =>
    obtain ⟨k, v⟩ := x
    rw [List.lookup_cons] at h
    split at h
    · rename_i hk
      simp only [beq_iff_eq] at hk
      simp only [Option.some.injEq] at h
      subst hk h
      simp
    · exact List.mem_cons_of_mem _ (ih h)

theorem open_inv {s : IStream} {r : Reader} (hs : s.Tail) (h : Reader.open s = .ok r) :
    FromBytes s.all r.entries ∧ r.input.all = s.all := by
  unfold Reader.open at h
  split at h
  · simp at h
  · match hr : readEntries s with
    | (.error e, _) => rw [hr] at h; simp at h
    | (.ok (m, ks), s') =>
      rw [hr] at h
      simp only [Except.ok.injEq] at h
      subst h
      unfold readEntries at hr
      obtain ⟨⟨⟩, s1, h1, hr⟩ := SM.of_bind_ok hr
      obtain ⟨dir, s2, h2, hr⟩ := SM.of_bind_ok hr
      obtain ⟨⟨⟩, s3, h3, hr⟩ := SM.of_bind_ok hr
      obtain ⟨⟨m1, ks1⟩, s4, h4, hr⟩ := SM.of_bind_ok hr
      simp only [SM.pure_apply, Prod.mk.injEq, Except.ok.injEq] at hr
      obtain ⟨⟨rfl, rfl⟩, rfl⟩ := hr
      have t1 : s1.Tail := by
        have := tail_seekg ((s.all.length : Int) + -(CD_END_SIZE : Int)) s hs
        have e : IStream.seekg ((s.all.length : Int) + -(CD_END_SIZE : Int)) s = (.ok (), s1) := h1
        rw [e] at this; exact this
      have a1 : s1.all = s.all := by
        have := (keeps_seekgEnd (-(CD_END_SIZE : Int)) s).1
        rw [h1] at this; exact this
      have kd : KeepsTail readEndOfCentralDirectory :=
        (tail_assertSig _).bind fun _ => (tail_readLE 2).bind fun _ => (tail_readLE 2).bind fun _ => (tail_readLE 2).bind fun _ =>
          (tail_readLE 2).bind fun _ => (tail_readLE 4).bind fun _ => (tail_readLE 4).bind fun _ => KeepsTail.pure _
      have kk : Keeps readEndOfCentralDirectory :=
        (keeps_assertSig _).bind fun _ => (keeps_readLE 2).bind fun _ => (keeps_readLE 2).bind fun _ => (keeps_readLE 2).bind fun _ =>
          (keeps_readLE 2).bind fun _ => (keeps_readLE 4).bind fun _ => (keeps_readLE 4).bind fun _ => Keeps.pure _
      have t2 : s2.Tail := by have := kd s1 t1; rw [h2] at this; exact this
      have a2 : s2.all = s1.all := by have := (kk s1).1; rw [h2] at this; exact this
      have t3 : s3.Tail := by have := tail_seekg (toStreamoff dir.offset) s2 t2; rw [h3] at this; exact this
      have a3 : s3.all = s2.all := by have := (keeps_seekg (toStreamoff dir.offset) s2).1; rw [h3] at this; exact this
      obtain ⟨k1, k2⟩ := readEntriesLoop_inv _ t3 (by intro n e he; simp at he) h4
      refine ⟨?_, by rw [k2, a3, a2, a1]⟩
      rw [a3, a2, a1] at k1
      exact k1

end Npy
