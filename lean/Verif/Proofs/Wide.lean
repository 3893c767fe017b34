import Verif.Proofs.Short
/-! Wide strings. -/

namespace Npy

/-- Order of the bytes of a code unit: the host's, or reversed. -/
def wideSwaps (cfg : Cfg) (e : Endian) : Prop := ¬ (e = .native ∨ e = nativeEndian cfg)

instance (cfg : Cfg) (e : Endian) : Decidable (wideSwaps cfg e) := by unfold wideSwaps; infer_instance

def unitMem (cfg : Cfg) (e : Endian) (m : Bytes) : Bytes := if wideSwaps cfg e then m.reverse else m

theorem unitMem_unitMem (cfg : Cfg) (e : Endian) (m : Bytes) : unitMem cfg e (unitMem cfg e m) = m := by
  unfold unitMem; split <;> simp

theorem writeUnit_eq (cfg : Cfg) (e : Endian) (c : Nat) : writeUnit cfg e c = unitMem cfg e (hostBytes cfg 4 c) := by
  have hl := hostBytes_length cfg 4 c
  unfold writeUnit unitMem
  match hh : hostBytes cfg 4 c, hl with
  | [b0, b1, b2, b3], _ =>
    by_cases h : e = .native ∨ e = nativeEndian cfg
    · have hw : ¬ wideSwaps cfg e := not_not.2 h
      rw [if_neg hw]; simp [h]
    · have hw : wideSwaps cfg e := h
      rw [if_pos hw]; simp [h]

theorem writeUnit_length (cfg : Cfg) (e : Endian) (c : Nat) : (writeUnit cfg e c).length = 4 := by
  rw [writeUnit_eq]; unfold unitMem; split <;> simp

theorem writeUnit_zero (cfg : Cfg) (e : Endian) : writeUnit cfg e 0 = [0, 0, 0, 0] := by
  have h : hostBytes cfg 4 0 = [0, 0, 0, 0] := by
    unfold hostBytes
    split <;> rfl
  rw [writeUnit_eq, h]
  unfold unitMem
  split <;> rfl

/-- The bytes of one string in an array whose longest string has `len` units. -/
def wideBytes (cfg : Cfg) (e : Endian) (len : Nat) (v : WStr) : Bytes :=
  (v ++ List.replicate (len - v.length) 0).flatMap (writeUnit cfg e)

theorem le_maxLength {vals : List WStr} {v : WStr} (h : v ∈ vals) : v.length ≤ maxLength vals := by
  have main : ∀ (vals : List WStr) (m : Nat),
      m ≤ vals.foldl (fun m v => if v.length > m then v.length else m) m ∧
      ∀ v ∈ vals, v.length ≤ vals.foldl (fun m v => if v.length > m then v.length else m) m := by
    intro vals
    induction vals with
    | nil => simp
    | cons x l ih =>
      intro m
      rw [List.foldl_cons]
      have h1 := ih (if x.length > m then x.length else m)
      refine ⟨?_, ?_⟩
      · refine Nat.le_trans ?_ h1.1
        split <;> omega
      · intro v hv
        rw [List.mem_cons] at hv
        cases hv with
        | inl hv => subst hv; refine Nat.le_trans ?_ h1.1; split <;> omega
        | inr hv => exact h1.2 v hv
  exact (main vals 0).2 v h

theorem wideBytes_length (cfg : Cfg) (e : Endian) {len : Nat} {v : WStr} (h : v.length ≤ len) :
    (wideBytes cfg e len v).length = len * 4 := by
  rw [wideBytes, flatMap_length 4 _ _ (fun c _ => writeUnit_length cfg e c), List.length_append, List.length_replicate]
  congr 1; omega

theorem writeWide_ok {cfg : Cfg} {e : Endian} {vals : List WStr} {o : OStream} (ho : o.Healthy) :
    writeWide cfg e vals o = o.write (vals.flatMap (wideBytes cfg e (maxLength vals))) := by
  unfold writeWide
  rw [← OStream.foldl_write _ _ ho]
  have : ∀ (l : List WStr) (o : OStream), o.Healthy →
      l.foldl (fun o v =>
        let o := v.foldl (fun o c => o.write (writeUnit cfg e c)) o
        (List.range (maxLength vals - v.length)).foldl (fun o _ => o.write [0, 0, 0, 0]) o) o =
      l.foldl (fun o x => o.write (wideBytes cfg e (maxLength vals) x)) o := by
    intro l
    induction l with
    | nil => intros; rfl
    | cons v l ih =>
      intro o ho
      rw [List.foldl_cons, List.foldl_cons]
      have h1 : (let o := v.foldl (fun o c => o.write (writeUnit cfg e c)) o
          (List.range (maxLength vals - v.length)).foldl (fun o _ => o.write [0, 0, 0, 0]) o) =
          o.write (wideBytes cfg e (maxLength vals) v) := by
        simp only []
        rw [OStream.foldl_write _ _ ho, OStream.foldl_write _ _ (ho.write _), OStream.write_healthy (ho.write _),
          OStream.write_healthy ho, OStream.write_healthy ho, wideBytes, List.flatMap_append]
        have h2 : (List.replicate (maxLength vals - v.length) 0).flatMap (writeUnit cfg e) =
            (List.range (maxLength vals - v.length)).flatMap fun _ => [0, 0, 0, 0] := by
          generalize maxLength vals - v.length = k
          induction k with
          | zero => rfl
          | succ k ih =>
            rw [List.replicate_succ', List.flatMap_append, List.range_succ, List.flatMap_append, ih]
            simp [writeUnit_zero]
        simp [h2]
      rw [h1]
      exact ih _ (ho.write _)
  exact this vals o ho

/-- The code units stored in `n` groups of four bytes. -/
def unitsOf (cfg : Cfg) (e : Endian) (n : Nat) (bs : Bytes) : List Nat :=
  (chunks 4 n bs).map fun m => hostValue cfg (unitMem cfg e m)

theorem unitsOf_flatMap (cfg : Cfg) (e : Endian) (us : List Nat) (h : ∀ u ∈ us, u < 2 ^ 32) :
    unitsOf cfg e us.length (us.flatMap (writeUnit cfg e)) = us := by
  have hch := chunks_flatMap 4 (writeUnit cfg e) us (fun c _ => writeUnit_length cfg e c) []
  rw [List.append_nil] at hch
  rw [unitsOf, hch, List.map_map]
  conv_rhs => rw [← List.map_id us]
  apply List.map_congr_left
  intro u hu
  simp only [Function.comp, writeUnit_eq, unitMem_unitMem, id]
  exact hostValue_hostBytes cfg (by have := h u hu; omega)

/-- The string made of the non-zero units. -/
def dropNul (cfg : Cfg) (us : List Nat) : WStr := (us.filter (· ≠ 0)).map (toWchar cfg)

theorem readUnits_gen {cfg : Cfg} {e : Endian} {s : IStream} (h : s.Clean) (n : Nat) (acc : WStr) :
    readUnits cfg e n acc s = (.ok (acc ++ dropNul cfg (unitsOf cfg e n (s.padded 0xFF (n * 4)))), s.adv (n * 4)) := by
  induction n generalizing s acc with
  | zero => simp [readUnits, unitsOf, chunks, dropNul, IStream.Clean.adv_zero]
  | succ n ih =>
    rw [readUnits]
    have h1 : readSwapElem (if e = .native ∨ e = nativeEndian cfg then [0, 1, 2, 3] else [3, 2, 1, 0])
        (List.replicate 4 0) s = (.ok (unitMem cfg e (s.padded 0xFF 4)), s.adv 4) := by
      unfold unitMem
      by_cases hc : e = .native ∨ e = nativeEndian cfg
      · have hw : ¬ wideSwaps cfg e := not_not.2 hc
        rw [if_pos hc, if_neg hw]
        exact readSwapElem_fwd h 4
      · have hw : wideSwaps cfg e := hc
        rw [if_neg hc, if_pos hw]
        exact readSwapElem_rev h 4
    simp only []
    rw [SM.bind_ok h1]
    have h2 : unitsOf cfg e (n + 1) (s.padded 0xFF ((n + 1) * 4)) =
        hostValue cfg (unitMem cfg e (s.padded 0xFF 4)) :: unitsOf cfg e n ((s.adv 4).padded 0xFF (n * 4)) := by
      rw [unitsOf, chunks_succ', List.map_cons]; rfl
    rw [h2, Nat.succ_mul, Nat.add_comm (n * 4) 4, ← h.adv_adv]
    split
    · rename_i hz
      rw [ih (h.adv 4)]
      simp [dropNul, hz]
    · rename_i hz
      rw [ih (h.adv 4)]
      simp [dropNul, hz]

theorem readWideLoop_gen {cfg : Cfg} {e : Endian} {s : IStream} (h : s.Clean) (len n : Nat) :
    readWideLoop cfg e len n s =
      (.ok ((chunks (len * 4) n (s.padded 0xFF (n * (len * 4)))).map fun m => dropNul cfg (unitsOf cfg e len m)),
        s.adv (n * (len * 4))) := by
  induction n generalizing s with
  | zero => simp [readWideLoop, chunks, IStream.Clean.adv_zero]
  | succ n ih =>
    rw [readWideLoop, SM.bind_ok (readUnits_gen h _ _), SM.bind_ok (ih (h.adv _)), chunks_succ', h.adv_adv,
      Nat.succ_mul n, Nat.add_comm (len * 4)]
    rfl

theorem chunks_zero (n : Nat) : chunks 0 n [] = List.replicate n [] := by
  induction n with
  | zero => rfl
  | succ n ih => simp [chunks, ih, List.replicate_succ]

/-- What `read_values<std::wstring>` returns for any contents of the stream. -/
theorem readWide_gen {cfg : Cfg} {e : Endian} {len : Nat} {info : HeaderInfo} (n : Nat) (he : info.endianness = some e)
    (hl : info.maxElementLength = some len) {s : IStream} (h : s.Clean) :
    readWide cfg info n s =
      (.ok ((chunks (len * 4) n (s.padded 0xFF (n * (len * 4)))).map fun m => dropNul cfg (unitsOf cfg e len m)),
        s.adv (n * (len * 4))) := by
  unfold readWide
  by_cases hn : n = 0
  · subst hn; simp [chunks, IStream.Clean.adv_zero]
  · rw [if_neg hn, hl]
    simp only []
    by_cases h0 : len = 0
    · subst h0
      simp [IStream.padded, chunks_zero, IStream.Clean.adv_zero, unitsOf, chunks, dropNul]
    · rw [if_neg h0, he]
      exact readWideLoop_gen h len n

/-- Reading back what `writeWide` wrote: each string without its zero units. -/
theorem readWide_ok {cfg : Cfg} {e e' : Endian} {vals : List WStr} {info : HeaderInfo}
    (he : info.endianness = some e') (hl : info.maxElementLength = some (maxLength vals))
    (hs : wideSwaps cfg e' ↔ wideSwaps cfg e) (hv : ∀ v ∈ vals, ∀ u ∈ v, u < 2 ^ 32) {s : IStream}
    (h : s.good = true) (r : Bytes) :
    readWide cfg info vals.length (s.withRest (vals.flatMap (wideBytes cfg e (maxLength vals)) ++ r)) =
      (.ok (vals.map (dropNul cfg)), s.withRest r) := by
  have hlen : (vals.flatMap (wideBytes cfg e (maxLength vals))).length = vals.length * (maxLength vals * 4) :=
    flatMap_length _ _ _ fun v hx => wideBytes_length cfg e (le_maxLength hx)
  rw [readWide_gen _ he hl (.inl (by simpa using h)), ← hlen, padded_all, adv_all]
  have hch := chunks_flatMap (maxLength vals * 4) (wideBytes cfg e (maxLength vals)) vals
    (fun v hx => wideBytes_length cfg e (le_maxLength hx)) []
  rw [List.append_nil] at hch
  rw [hch, List.map_map]
  congr 2
  apply List.map_congr_left
  intro v hx
  have hu : unitMem cfg e' = unitMem cfg e := by
    funext m; unfold unitMem
    by_cases hw : wideSwaps cfg e
    · rw [if_pos hw, if_pos (hs.2 hw)]
    · rw [if_neg hw, if_neg (fun x => hw (hs.1 x))]
  have hu' : unitsOf cfg e' = unitsOf cfg e := by
    funext n m; unfold unitsOf; rw [hu]
  have hle := le_maxLength hx
  have hle2 : (v ++ List.replicate (maxLength vals - v.length) 0).length = maxLength vals := by
    simp; omega
  simp only [Function.comp, hu', wideBytes]
  have h3 := unitsOf_flatMap cfg e (v ++ List.replicate (maxLength vals - v.length) 0) (by
    intro u hu
    rw [List.mem_append, List.mem_replicate] at hu
    cases hu with
    | inl hu => exact hv v hx u hu
    | inr hu => rw [hu.2]; decide)
  rw [hle2] at h3
  rw [h3]
  simp [dropNul]

end Npy
