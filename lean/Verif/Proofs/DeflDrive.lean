import Verif.Proofs.DeflStep
import Verif.Proofs.InflateDrive
/-!
# The drivers of the compressor
-/

namespace Npy
open Spec.Deflate

/-- Compression goes on; `rest` is the input the compressor has not seen. -/
def Live (input sent : Bytes) (d : Tdefl) (rest : Bytes) : Prop :=
  ∃ toks blocks, CInv input sent d toks blocks ∧ d.lz.pos ≤ 65528 ∧
    input.drop (d.lookaheadPos + d.lookaheadSize) = rest ∧ d.pending.length ≤ OUT_LIMIT

/-- The bytes are a stream for the input, and not too many. -/
def Made (z input : Bytes) : Prop := InflatesExactly z input ∧ z.length ≤ 3 * input.length + 9

/-- The last block was made. -/
structure Over (input sent : Bytes) (d : Tdefl) : Prop where
  fin : d.finished = true
  exact : Made (sent ++ d.pending) input
  short : d.pending.length ≤ OUT_LIMIT

theorem Live.wants {input sent rest : Bytes} {d : Tdefl} (h : Live input sent d rest) (b : Bool) :
    Live input sent { d with wantsToFinish := b } rest := by
  obtain ⟨toks, blocks, h1, h2, h3, h4⟩ := h
  refine ⟨toks, blocks, ?_, h2, h3, h4⟩
  constructor
  case small => exact h1.small
  case ls => exact h1.ls
  case ds => exact h1.ds
  case win => exact h1.win
  case holds => exact h1.holds
  case rng => exact h1.rng
  case counts => exact h1.counts
  case expandToks => exact h1.expandToks
  case total => exact h1.total
  case saved => exact h1.saved
  case buf => exact h1.buf
  case bitsIn => exact h1.bitsIn
  case bits => exact h1.bits
  case sok => exact h1.sok
  case expand => exact h1.expand
  case fin => exact h1.fin
  case size => exact h1.size
  case dlow => exact h1.dlow

/-- Some of the pending bytes are given to the caller. -/
theorem Live.give {input sent rest : Bytes} {d : Tdefl} (h : Live input sent d rest) (n : Nat) :
    Live input (sent ++ d.pending.take n) { d with pending := d.pending.drop n } rest := by
  obtain ⟨toks, blocks, h1, h2, h3, h4⟩ := h
  refine ⟨toks, blocks, ?_, h2, h3, by simp only [List.length_drop]; omega⟩
  constructor
  case small => exact h1.small
  case ls => exact h1.ls
  case ds => exact h1.ds
  case win => exact h1.win
  case holds => exact h1.holds
  case rng => exact h1.rng
  case counts => exact h1.counts
  case expandToks => exact h1.expandToks
  case total => exact h1.total
  case saved => exact h1.saved
  case buf => exact h1.buf
  case bitsIn => exact h1.bitsIn
  case bits =>
    rw [List.append_assoc, List.take_append_drop]
    exact h1.bits
  case sok => exact h1.sok
  case expand => exact h1.expand
  case fin => exact h1.fin
  case size =>
    simp only
    rw [List.append_assoc, List.take_append_drop]
    exact h1.size
  case dlow => exact h1.dlow

theorem Over.give {input sent : Bytes} {d : Tdefl} (h : Over input sent d) (n : Nat) :
    Over input (sent ++ d.pending.take n) { d with pending := d.pending.drop n } := by
  refine ⟨h.fin, ?_, by simp only [List.length_drop]; have := h.short; omega⟩
  rw [List.append_assoc, List.take_append_drop]
  exact h.exact

theorem Live.notFin {input sent rest : Bytes} {d : Tdefl} (h : Live input sent d rest) : d.finished = false := by
  obtain ⟨_, _, h1, -⟩ := h
  exact h1.fin

/-- One call of `tdefl_compress` when nothing is pending. -/
theorem tdefl_live (j : Junk) (fuel : Nat) (fin : Bool) (outSize : Nat) {input sent src later : Bytes} {d : Tdefl}
    (h : Live input sent d (src ++ later)) (hp : d.pending = []) (hw : d.wantsToFinish = true → fin = true)
    (hl : fin = true → later = []) (hf : src.length + d.lookaheadSize < fuel) :
    ∃ src' out d' st, tdeflCompress false dbg j fuel fin outSize src .okay d = .ok (src', out, d', st) ∧ out.length ≤ outSize ∧
      (d'.wantsToFinish = true → fin = true) ∧
      ((st = .okay ∧ Live input (sent ++ out) d' (src' ++ later) ∧ src' = [] ∧ fin = false ∧ d'.pending = [] ∧
          d'.lookaheadSize ≤ src.length + d.lookaheadSize ∧ (src = [] → out = [])) ∨
       (st = .okay ∧ Live input (sent ++ out) d' (src' ++ later) ∧ d'.pending ≠ [] ∧ out.length = outSize ∧
          src'.length + d'.lookaheadSize < src.length + d.lookaheadSize ∧ (src = [] → fin = true)) ∨
       (Over input (sent ++ out) d' ∧ src' = [] ∧ fin = true ∧
          ((st = .done ∧ d'.pending = []) ∨ (st = .okay ∧ d'.pending ≠ [] ∧ out.length = outSize)))) := by
  unfold tdeflCompress
  rw [if_neg (by
    rintro (hc | ⟨hc1, hc2⟩)
    · exact hc rfl
    · exact hc2 (hw hc1))]
  dsimp only
  have hnf := h.notFin
  rw [if_neg (by
    rintro (hc | hc)
    · exact hc hp
    · rw [hnf] at hc; simp at hc)]
  obtain ⟨toks, blocks, h1, h2, h3, h4⟩ := h.wants (d.wantsToFinish || fin)
  generalize hd1 : ({ d with wantsToFinish := d.wantsToFinish || fin } : Tdefl) = d1 at *
  have hls1 : d1.lookaheadSize = d.lookaheadSize := by rw [← hd1]
  have hp1 : d1.pending = [] := by rw [← hd1]; exact hp
  have hw1 : d1.wantsToFinish = (d.wantsToFinish || fin) := by rw [← hd1]
  obtain ⟨src', out', d2, toks', blocks', q1, q2, q3, q4, q5, q6, q7, q8, q9, q10⟩ := compressNormal_ok j fin outSize (sent := sent)
    fuel src [] d1 toks blocks (by rwa [List.append_nil]) hp1 h2 later h3 (by simp) (by rw [hls1]; exact hf)
  rw [q1]
  dsimp only
  have hw2 : d2.wantsToFinish = true → fin = true := by
    rw [q10, hw1, Bool.or_eq_true]
    rintro (hc | hc)
    · exact hw hc
    · exact hc
  have hsrc0 : src = [] → fin = false → out' = [] ∧ d2 = d1 := by
    intro hs hfin
    subst hs hfin
    cases fuel with
    | zero => omega
    | succ f =>
      rw [compressNormal_succ, if_neg (by simp)] at q1
      simp only [Except.ok.injEq, Prod.mk.injEq] at q1
      exact ⟨q1.2.1.symm, q1.2.2.symm⟩
  unfold finishUp
  by_cases hpe : d2.pending = []
  · obtain ⟨r1, r2⟩ := q8 hpe
    by_cases hfin : fin = true
    · have hls := r2 hfin
      rw [if_pos ⟨hfin, hls, r1, hpe⟩]
      obtain ⟨o, d3, k1, k2', k7, k3, k4, k5, k6⟩ := flushLast_ok j q2 hpe (by omega) (outSize - out'.length)
      rw [k1]
      dsimp only
      have hall : input.take d2.lookaheadPos = input := by
        apply List.take_of_length_le
        have := congrArg List.length q4
        rw [r1, hl hfin, List.length_drop] at this
        simp only [List.append_nil, List.length_nil] at this
        omega
      rw [hall] at k2'
      have k2 : Made (sent ++ out' ++ o ++ d3.pending) input := ⟨k2', k7⟩
      unfold flushOutput
      dsimp only
      have hn : min (outSize - (out' ++ o).length) d3.pending.length = 0 := by
        by_cases hd3 : d3.pending = []
        · rw [hd3]; simp
        · have := k5 hd3
          rw [List.length_append]
          omega
      rw [hn]
      refine ⟨src', _, _, _, rfl, ?_, ?_, .inr (.inr ⟨⟨rfl, ?_, ?_⟩, r1, hfin, ?_⟩)⟩
      · rw [List.take_zero, List.append_nil, List.length_append]; omega
      · simp only [k3]; exact hw2
      · simp only [List.take_zero, List.append_nil, List.drop_zero]
        rw [← List.append_assoc]
        exact k2
      · simp only [List.drop_zero]; exact k6
      · simp only [List.drop_zero, List.take_zero, List.append_nil, true_and]
        by_cases hd3 : d3.pending = []
        · left
          rw [if_pos hd3]
          exact ⟨rfl, hd3⟩
        · right
          rw [if_neg hd3]
          refine ⟨rfl, hd3, ?_⟩
          have := k5 hd3
          rw [List.length_append]
          omega
    · rw [if_neg (fun hc => hfin hc.1)]
      have hff : fin = false := by simpa using hfin
      unfold flushOutput
      dsimp only
      rw [hpe]
      refine ⟨src', _, _, _, rfl, ?_, ?_, .inl ⟨?_, ?_, r1, hff, ?_, ?_, ?_⟩⟩
      · simp only [List.take_nil, List.append_nil]; exact q5
      · simp only; exact hw2
      · rw [if_neg (by rw [q2.fin]; simp)]
      · simp only [List.take_nil, List.append_nil, List.drop_nil]
        refine ⟨toks', blocks', ?_, q3, q4, by simp⟩
        rw [← hpe]
        exact q2
      · simp
      · simp only
        rw [r1] at q6
        simp only [List.length_nil] at q6
        omega
      · intro hs
        rw [(hsrc0 hs hff).1]
        simp
  · obtain ⟨r1, r2⟩ := q7 hpe
    rw [if_neg (fun hc => hpe hc.2.2.2)]
    dsimp only
    unfold flushOutput
    dsimp only
    have hn : min (outSize - out'.length) d2.pending.length = 0 := by omega
    rw [hn]
    refine ⟨src', _, _, _, rfl, ?_, ?_, .inr (.inl ⟨?_, ?_, ?_, ?_, ?_, ?_⟩)⟩
    · simp only [List.take_zero, List.append_nil]; exact q5
    · simp only; exact hw2
    · rw [if_neg (by rw [q2.fin]; simp)]
    · simp only [List.take_zero, List.append_nil, List.drop_zero]
      exact ⟨toks', blocks', q2, q3, q4, le_of_lt q9⟩
    · simpa using hpe
    · simpa using r1
    · simp only; omega
    · intro hs
      by_contra hfin
      have := (hsrc0 hs (by simpa using hfin)).2
      rw [this] at hpe
      exact hpe hp1

/-- One call of `tdefl_compress` when bytes are pending and there is room for them. -/
theorem tdefl_pending (j : Junk) (fuel : Nat) (fin : Bool) (outSize : Nat) (src : Bytes) (d : Tdefl)
    (hp : d.pending ≠ [] ∨ d.finished = true) (hw : d.wantsToFinish = true → fin = true) (hroom : d.pending.length ≤ outSize) :
    ∃ d', tdeflCompress false dbg j fuel fin outSize src .okay d =
        .ok (src, d.pending, d', if d.finished then .done else .okay) ∧
      d' = { d with wantsToFinish := d.wantsToFinish || fin, pending := [] } := by
  unfold tdeflCompress
  rw [if_neg (by
    rintro (hc | ⟨hc1, hc2⟩)
    · exact hc rfl
    · exact hc2 (hw hc1))]
  dsimp only
  rw [if_pos hp]
  unfold flushOutput
  dsimp only
  refine ⟨_, ?_, rfl⟩
  rw [show min (outSize - ([] : Bytes).length) d.pending.length = d.pending.length by
    rw [List.length_nil]; omega]
  simp only [List.take_length, List.drop_length, List.nil_append, and_true]

/-- What `mz_deflate` comes back with. -/
def MzRes (input sent later : Bytes) (fin : Bool) (s : DeflStream) (ret : MzRet) (s' : DeflStream) : Prop :=
  ret ≠ .dataError ∧ (s'.d.wantsToFinish = true → fin = true) ∧ s'.availOut + s'.out.length = CHUNK ∧
      ((s'.prev = .okay ∧ Live input (sent ++ s'.out) s'.d (s'.inp ++ later) ∧ s'.inp = [] ∧ fin = false ∧
          s'.d.lookaheadSize ≤ s.inp.length + s.d.lookaheadSize ∧ (s.inp = [] → s'.availOut ≠ 0)) ∨
       (s'.prev = .okay ∧ Live input (sent ++ s'.out) s'.d (s'.inp ++ later) ∧ s'.availOut = 0 ∧
          s'.inp.length + s'.d.lookaheadSize < s.inp.length + s.d.lookaheadSize ∧ (s.inp = [] → fin = true)) ∨
       (Over input (sent ++ s'.out) s'.d ∧ s'.inp = [] ∧ fin = true ∧
          ((s'.prev = .done ∧ s'.d.pending = [] ∧ ret = .streamEnd) ∨ (s'.prev = .okay ∧ s'.availOut = 0))))

/-- `mz_deflate` with a fresh output buffer. -/
theorem mzDeflate_live (j : Junk) (fuel : Nat) (fin : Bool) {input sent later : Bytes} {s : DeflStream}
    (h : Live input sent s.d (s.inp ++ later)) (hprev : s.prev = .okay) (hout : s.out = []) (hav : s.availOut = CHUNK)
    (hw : s.d.wantsToFinish = true → fin = true)
    (hl : fin = true → later = []) (hf : s.inp.length + s.d.lookaheadSize < fuel) (hf2 : 2 ≤ fuel) :
    ∃ ret s', mzDeflate false dbg j fuel fin s = .ok (ret, s') ∧ MzRes input sent later fin s ret s' := by
  have hchunk : OUT_LIMIT < CHUNK := by decide
  have hcp : 0 < CHUNK := by omega
  have hplen : s.d.pending.length ≤ OUT_LIMIT := by
    obtain ⟨_, _, -, -, -, h4⟩ := h
    exact h4
  unfold mzDeflate
  rw [if_neg (by omega), if_neg (by rw [hprev]; simp)]
  -- the call with nothing pending
  have core : ∀ (f : Nat) (s1 : DeflStream) (oi oo : Nat), 1 ≤ f → Live input (sent ++ s1.out) s1.d (s1.inp ++ later) → s1.d.pending = [] →
      s1.prev = .okay → s1.availOut ≠ 0 → s1.availOut + s1.out.length = CHUNK → s1.inp = s.inp →
      s1.d.lookaheadSize = s.d.lookaheadSize → (s1.d.wantsToFinish = true → fin = true) →
      ∃ ret s', mzDeflateLoop false dbg j fuel fin oi oo f s1 = .ok (ret, s') ∧ MzRes input sent later fin s ret s' := by
    intro f s1 oi oo hf1 g1 g2 g3 g4 g5 g6 g7 g8
    cases f with
    | zero => omega
    | succ f =>
      obtain ⟨src', out, d', st, e1, e2, e3, e4⟩ := tdefl_live j fuel fin s1.availOut g1 g2 g8 hl (by rw [g6, g7]; exact hf)
      rw [mzDeflateLoop, g3, e1]
      dsimp only
      have hsum : s1.availOut - out.length + (s1.out ++ out).length = CHUNK := by
        rw [List.length_append]; omega
      rw [g6, g7] at e4
      rcases e4 with ⟨rfl, a2, a3, a4, a5, a6, a7⟩ | ⟨rfl, b2, b3, b4, b5, b6⟩ | ⟨c1, c2, c3, c4⟩
      · have hres : ∀ ret : MzRet, ret ≠ .dataError → MzRes input sent later fin s ret
            ⟨d', .okay, src', s1.availOut - out.length, s1.out ++ out⟩ := by
          intro ret hret
          refine ⟨hret, e3, hsum, .inl ⟨rfl, ?_, a3, a4, a6, ?_⟩⟩
          · rw [← List.append_assoc]; exact a2
          · intro hs
            rw [a7 hs]
            simpa using g4
        rw [if_neg (by simp), if_neg (by simp)]
        by_cases h0 : s1.availOut - out.length = 0
        · rw [if_pos h0]; exact ⟨_, _, rfl, hres .ok (by simp)⟩
        · rw [if_neg h0, if_pos ⟨a3, by simp [a4]⟩]
          split
          · exact ⟨_, _, rfl, hres .ok (by simp)⟩
          · exact ⟨_, _, rfl, hres .bufError (by simp)⟩
      · rw [if_neg (by simp), if_neg (by simp), if_pos (by omega)]
        refine ⟨.ok, _, rfl, by simp, e3, hsum, .inr (.inl ⟨rfl, ?_, by simp only; omega, b5, b6⟩)⟩
        rw [← List.append_assoc]; exact b2
      · rcases c4 with ⟨rfl, c5⟩ | ⟨rfl, c5, c6⟩
        · rw [if_neg (by simp), if_pos rfl]
          refine ⟨.streamEnd, _, rfl, by simp, e3, hsum, .inr (.inr ⟨?_, c2, c3, .inl ⟨rfl, c5, rfl⟩⟩)⟩
          rw [← List.append_assoc]; exact c1
        · rw [if_neg (by simp), if_neg (by simp), if_pos (by omega)]
          refine ⟨.ok, _, rfl, by simp, e3, hsum, .inr (.inr ⟨?_, c2, c3, .inr ⟨rfl, by simp only; omega⟩⟩)⟩
          rw [← List.append_assoc]; exact c1
  by_cases hp : s.d.pending = []
  · exact core fuel s _ _ (by omega) (by rw [hout, List.append_nil]; exact h) hp hprev (by omega) (by rw [hout, hav]; rfl) rfl rfl hw
  · obtain ⟨f, rfl⟩ : ∃ f, fuel = f + 1 := ⟨fuel - 1, by omega⟩
    obtain ⟨d', e1, e2⟩ := tdefl_pending j (f + 1) fin s.availOut s.inp s.d (.inl hp) hw (by omega)
    have hnf := h.notFin
    rw [hnf] at e1
    simp only [Bool.false_eq_true, if_false] at e1
    rw [mzDeflateLoop, hprev, e1]
    dsimp only
    have hplen0 : s.d.pending.length ≠ 0 := by simpa using hp
    have hlive : Live input (sent ++ (s.out ++ s.d.pending)) d' (s.inp ++ later) := by
      have := (h.wants (s.d.wantsToFinish || fin)).give s.d.pending.length
      simp only [List.take_length, List.drop_length] at this
      rw [e2, hout, List.nil_append]
      exact this
    have hw' : d'.wantsToFinish = true → fin = true := by
      rw [e2]
      simp only [Bool.or_eq_true]
      rintro (hc | hc)
      · exact hw hc
      · exact hc
    have hls : d'.lookaheadSize = s.d.lookaheadSize := by rw [e2]
    have hpe : d'.pending = [] := by rw [e2]
    rw [if_neg (by simp), if_neg (by simp), if_neg (by omega)]
    by_cases hdone : s.inp = [] ∧ ¬fin = true
    · rw [if_pos hdone, if_pos (by right; omega)]
      refine ⟨.ok, _, rfl, by simp, hw', ?_, .inl ⟨rfl, hlive, hdone.1, by simpa using hdone.2, ?_, ?_⟩⟩
      · simp only [hout, List.nil_append]; omega
      · simp only [hls]; omega
      · simp only; intro _; omega
    · rw [if_neg hdone]
      refine core f _ _ _ (by omega) hlive hpe rfl ?_ ?_ rfl hls hw'
      · simp only; omega
      · simp only [hout, List.nil_append]; omega

/-- `mz_deflate` when the last block was made. -/
theorem mzDeflate_over (j : Junk) (fuel : Nat) {input sent : Bytes} {s : DeflStream}
    (h : Over input sent s.d) (hprev : s.prev = .okay ∨ (s.prev = .done ∧ s.d.pending = [])) (hout : s.out = []) (hav : s.availOut = CHUNK)
    (hf : 1 ≤ fuel) :
    ∃ s', mzDeflate false dbg j fuel true s = .ok (.streamEnd, s') ∧ s'.inp = s.inp ∧ s'.availOut ≠ 0 ∧
      Made (sent ++ s'.out) input := by
  have hchunk : OUT_LIMIT < CHUNK := by decide
  have hcp : 0 < CHUNK := by omega
  unfold mzDeflate
  rw [if_neg (by omega)]
  rcases hprev with hprev | ⟨hprev, hpe⟩
  · rw [if_neg (by rw [hprev]; simp)]
    obtain ⟨f, rfl⟩ : ∃ f, fuel = f + 1 := ⟨fuel - 1, by omega⟩
    have hs := h.short
    obtain ⟨d', e1, e2⟩ := tdefl_pending j (f + 1) true s.availOut s.inp s.d (.inr h.fin) (fun _ => rfl) (by omega)
    rw [h.fin] at e1
    simp only [if_true] at e1
    rw [mzDeflateLoop, hprev, e1]
    dsimp only
    rw [if_neg (by simp), if_pos rfl]
    refine ⟨_, rfl, rfl, by simp only; omega, ?_⟩
    simp only [hout, List.nil_append]
    exact h.exact
  · rw [if_pos hprev]
    refine ⟨s, rfl, rfl, by omega, ?_⟩
    have := h.exact
    rw [hpe, List.append_nil] at this
    rw [hout, List.append_nil]
    exact this

/-- The inner loop of `npy_deflate`, after the last block. -/
theorem inner_over (dbg : Bool) (j : Junk) (fuel : Nat) (f : Nat) (hf : 1 ≤ f) (hfu : 1 ≤ fuel) {input output : Bytes} {s : DeflStream}
    (h : Over input output s.d) (hprev : s.prev = .okay ∨ (s.prev = .done ∧ s.d.pending = [])) (hi : s.inp = []) :
    ∃ s' output', npyDeflateInner false dbg j fuel true f s output = .ok (.streamEnd, s', output') ∧ Made output' input := by
  obtain ⟨f, rfl⟩ : ∃ k, f = k + 1 := ⟨f - 1, by omega⟩
  rw [npyDeflateInner]
  obtain ⟨s', e1, e2, e3, e4⟩ := mzDeflate_over j fuel (s := { s with availOut := CHUNK, out := [] }) h hprev rfl rfl hfu
  rw [e1]
  dsimp only
  rw [if_neg (by simp), if_neg e3, if_neg (by rw [e2]; simp [hi])]
  exact ⟨s', _, rfl, e4⟩

/-- The inner loop for the last chunk. -/
theorem inner_last (dbg : Bool) (j : Junk) (fuel : Nat) (f : Nat) {input output : Bytes} {s : DeflStream}
    (h : Live input output s.d s.inp) (hprev : s.prev = .okay)
    (hf : s.inp.length + s.d.lookaheadSize + 2 ≤ f) (hf2 : s.inp.length + s.d.lookaheadSize + 2 ≤ fuel) :
    ∃ s' output', npyDeflateInner false dbg j fuel true f s output = .ok (.streamEnd, s', output') ∧ Made output' input := by
  induction f generalizing s output with
  | zero => omega
  | succ f ih =>
    rw [npyDeflateInner]
    obtain ⟨ret, s', e1, e2, e3, -, e5⟩ := mzDeflate_live j fuel true (later := []) (s := { s with availOut := CHUNK, out := [] })
      (by rw [List.append_nil]; exact h) hprev rfl rfl (fun _ => rfl) (fun _ => rfl) (by simp only; omega) (by omega)
    rw [e1]
    dsimp only at e5 ⊢
    rw [if_neg (fun hc => e2 hc.2)]
    rcases e5 with ⟨-, -, -, hc, -⟩ | ⟨b1, b2, b3, b4, -⟩ | ⟨c1, c2, -, c3⟩
    · simp at hc
    · rw [if_pos b3]
      rw [List.append_nil] at b2
      exact ih b2 b1 (by omega) (by omega)
    · by_cases h0 : s'.availOut = 0
      · rw [if_pos h0]
        exact inner_over dbg j fuel f (by omega) (by omega) c1 (by
          rcases c3 with c3 | c3
          · exact .inr ⟨c3.1, c3.2.1⟩
          · exact .inl c3.1) c2
      · rw [if_neg h0, if_neg (by rw [c2]; simp)]
        rcases c3 with ⟨c3, c4, rfl⟩ | ⟨-, c4⟩
        · refine ⟨s', _, rfl, ?_⟩
          have := c1.exact
          rw [c4, List.append_nil] at this
          exact this
        · exact absurd c4 h0

/-- The inner loop for another chunk. -/
theorem inner_more (dbg : Bool) (j : Junk) (fuel : Nat) (f : Nat) {input output later : Bytes} {s : DeflStream}
    (h : Live input output s.d (s.inp ++ later)) (hprev : s.prev = .okay) (hw : s.d.wantsToFinish = false)
    (hf : s.inp.length + s.d.lookaheadSize + 2 ≤ f ∨ (s.inp = [] ∧ 1 ≤ f)) (hf2 : s.inp.length + s.d.lookaheadSize + 2 ≤ fuel) :
    ∃ ret s' output', npyDeflateInner false dbg j fuel false f s output = .ok (ret, s', output') ∧ Live input output' s'.d later ∧
      s'.prev = .okay ∧ s'.d.wantsToFinish = false ∧ s'.d.lookaheadSize ≤ s.inp.length + s.d.lookaheadSize := by
  induction f generalizing s output with
  | zero => omega
  | succ f ih =>
    rw [npyDeflateInner]
    obtain ⟨ret, s', e1, e2, e3, -, e5⟩ := mzDeflate_live j fuel false (later := later) (s := { s with availOut := CHUNK, out := [] })
      h hprev rfl rfl (by simp only [hw]; simp) (by simp) (by simp only; omega) (by omega)
    rw [e1]
    dsimp only at e5 ⊢
    rw [if_neg (fun hc => e2 hc.2)]
    have hw' : s'.d.wantsToFinish = false := by
      cases hh : s'.d.wantsToFinish with
      | false => rfl
      | true => exact absurd (e3 hh) (by simp)
    rcases e5 with ⟨a1, a2, a3, -, a4, a5⟩ | ⟨b1, b2, b3, b4, b5⟩ | ⟨-, -, hc, -⟩
    · by_cases h0 : s'.availOut = 0
      · rw [if_pos h0]
        have hne : s.inp ≠ [] := fun hc => a5 hc h0
        obtain ⟨ret', s2, o2, g1, g2, g3, g4, g5⟩ := ih a2 a1 hw' (.inr ⟨a3, by
            rcases hf with hf | ⟨hf, -⟩
            · omega
            · exact absurd hf hne⟩) (by rw [a3]; simp only [List.length_nil]; omega)
        refine ⟨ret', s2, o2, g1, g2, g3, g4, ?_⟩
        rw [a3] at g5
        simp only [List.length_nil] at g5
        omega
      · rw [if_neg h0, if_neg (by rw [a3]; simp)]
        rw [a3, List.nil_append] at a2
        exact ⟨ret, s', _, rfl, a2, a1, hw', a4⟩
    · rw [if_pos b3]
      obtain ⟨ret', s2, o2, g1, g2, g3, g4, g5⟩ := ih b2 b1 hw' (by
        rcases hf with hf | ⟨hf, -⟩
        · left; omega
        · exact absurd (b5 hf) (by simp)) (by omega)
      exact ⟨ret', s2, o2, g1, g2, g3, g4, by omega⟩
    · simp at hc

end Npy
