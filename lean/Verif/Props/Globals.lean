import Verif.Proofs.Globals
import Verif.Props.Npz
/-!
# C82: what earlier calls leave behind in the library has no effect on later ones
-/

namespace Npy

/-- **C82** `npy::load`, whatever was loaded, peeked or read before in the program: the outcome, and the stream afterwards, are those
of the call made first. In debug and in release builds, for every stream, whatever it holds. -/
theorem C82_load {α : Type} (cfg : Cfg) (codec : Codec) (ops : ElemOps α) (g : Globals) (hg : g.Reachable cfg codec) (s : IStream) :
    (loadG cfg ops (s, g)).1 = (load cfg ops s).1 ∧ (loadG cfg ops (s, g)).2.1 = (load cfg ops s).2 :=
  ⟨(load_tracks cfg ops s g hg.sound).1, (load_tracks cfg ops s g hg.sound).2.1⟩

/-- **C82** The same for `npy::peek`. -/
theorem C82_peek (cfg : Cfg) (codec : Codec) (g : Globals) (hg : g.Reachable cfg codec) (s : IStream) :
    (peekG cfg (s, g)).1 = (peek cfg s).1 ∧ (peekG cfg (s, g)).2.1 = (peek cfg s).2 :=
  ⟨(readNpyHeader_tracks cfg s g hg.sound).1, (readNpyHeader_tracks cfg s g hg.sound).2.1⟩

/-- **C82** The same for `npy::from_dtype`, for known and unknown strings. -/
theorem C82_dtype (cfg : Cfg) (codec : Codec) (g : Globals) (hg : g.Reachable cfg codec) (s : IStream) (d : Bytes) :
    (fromDtypeG d (s, g)).1 = .ok (fromDtype d) := by
  show Except.ok (fromDtypeM g.map d).1 = _
  rw [hg.sound d]

/-- **C82** The same for `read` of an archive reader. -/
theorem C82_read {α : Type} (cfg : Cfg) (codec : Codec) (ops : ElemOps α) (g : Globals) (hg : g.Reachable cfg codec) (r : Reader)
    (name : Bytes) :
    (Reader.readG cfg codec ops name (r, g)).1 = (Reader.read cfg codec ops name r).1 ∧
      (Reader.readG cfg codec ops name (r, g)).2.1 = (Reader.read cfg codec ops name r).2 := by
  unfold Reader.readG Reader.read
  rw [SM.bind_apply]
  dsimp only
  match Reader.readFile codec name r with
  | (.error e, r') => exact ⟨rfl, rfl⟩
  | (.ok bytes, r') => exact ⟨(C82_load cfg codec ops g hg _).1, rfl⟩

/-- **C82** The same for `peek` of an archive reader. -/
theorem C82_peekFile (cfg : Cfg) (codec : Codec) (g : Globals) (hg : g.Reachable cfg codec) (r : Reader) (name : Bytes) :
    (Reader.peekG cfg codec name (r, g)).1 = (Reader.peek cfg codec name r).1 ∧
      (Reader.peekG cfg codec name (r, g)).2.1 = (Reader.peek cfg codec name r).2 := by
  unfold Reader.peekG Reader.peek
  rw [SM.bind_apply]
  dsimp only
  match Reader.readFile codec name r with
  | (.error e, r') => exact ⟨rfl, rfl⟩
  | (.ok bytes, r') => exact ⟨(C82_peek cfg codec g hg _).1, rfl⟩

/-- A file of a debug build's nightmares: the header ends inside the literal `True`. -/
def exCutTrue : Bytes :=
  MAGIC ++ [1, 0, 21, 0] ++ b!"{'fortran_order': Tru"

/-- The globals do change: after `from_dtype("xyz")` and a header that ends inside a literal. -/
def exGlobals : Globals :=
  (peekG ⟨false, false, false⟩ (IStream.ofBytes exCutTrue, (fromDtypeG b!"xyz" (IStream.ofBytes [], Globals.initial)).2.2)).2.2

example (codec : Codec) : exGlobals.Reachable ⟨false, false, false⟩ codec := .peek _ (.fromDtype _ _ .start)

example : exGlobals.map ≠ Globals.initial.map ∧ exGlobals.buffer.copy 6 = b!"Trutra" := by
  decide +kernel

/-- The hypothesis on the globals is needed: had the bytes `True` been left in `BUFFER`, a debug build would take the cut header
past the literal. -/
example : (readBoolG ⟨false, false, false⟩ (IStream.ofBytes b!"Tru", ⟨fun i => (b!"True").getD i 0, DTYPE_MAP⟩)).1 = .ok true ∧
    (readBool ⟨false, false, false⟩ (IStream.ofBytes b!"Tru")).1 = .error .abort := by
  decide +kernel

end Npy
