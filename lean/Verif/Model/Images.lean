import Verif.Model.Fs
/-!
# The sample program

`examples/images/images.cpp`, the program of the README (README.md:59-130): a client that fills tensors through `operator()`, saves and
loads them by path, and writes and reads an archive. The extents, 32 by 32 in the source, are parameters.
-/

namespace Npy

/-- npy.h:889 `shape(int index)`: `m_shape[index]`, undefined outside the shape. -/
def Tensor.shapeAt {α : Type} (t : Tensor α) (index : Int) : Except Err Nat :=
  if index < 0 then .error .ub
  else match t.shape[index.toNat]? with
    | some n => .ok n
    | none => .error .ub

/-- npy.h:927-930 the member `save(path, endianness)` -/
def Tensor.savePath {α : Type} (cfg : Cfg) (ops : ElemOps α) (t : Tensor α) (p : Bytes) (e : Endian := .native) : SM Fs Unit :=
  Npy.savePath cfg ops t e p

/-- `for (int i = 0; i < n; ++i) body(i);` (images.cpp:8, 9, 34, 35): the first exception ends the loop. Simplification: `n` is below
`2^31`, so `i` does not overflow. -/
def forInt {σ : Type} (n : Nat) (body : Nat → σ → Except Err σ) (s : σ) : Except Err σ :=
  (List.range n).foldlM (fun s i => body i s) s

/-- images.cpp:10-12; `static_cast<std::uint8_t>(row << 3)` is the value modulo 256. -/
def paintColorPixel (row col : Nat) (color : Tensor Elem) : Except Err (Tensor Elem) := do
  let color ← color.set [row, col, 0] [row * 2 ^ 3 % 256]
  let color ← color.set [row, col, 1] [col * 2 ^ 3 % 256]
  color.set [row, col, 2] [128]

/-- images.cpp:8-14. Simplification: the extents, which the loops do not change, are looked up once. -/
def paintColor (color : Tensor Elem) : Except Err (Tensor Elem) := do
  let h ← color.shapeAt 0
  let w ← color.shapeAt 1
  forInt h (fun row => forInt w fun col => paintColorPixel row col) color

/-- images.cpp:36-37. `luma r g b` is the pattern of bits of `0.21f * r + 0.72f * g + 0.07f * b`; floating point is not modelled. -/
def paintGrayPixel (luma : Elem → Elem → Elem → Nat) (color : Tensor Elem) (row col : Nat) (gray : Tensor Elem) :
    Except Err (Tensor Elem) := do
  let r ← color.get [row, col, 0]
  let g ← color.get [row, col, 1]
  let b ← color.get [row, col, 2]
  gray.set [row, col] [luma r g b]

/-- images.cpp:34-39 -/
def paintGray (luma : Elem → Elem → Elem → Nat) (color gray : Tensor Elem) : Except Err (Tensor Elem) := do
  let h ← gray.shapeAt 0
  let w ← gray.shapeAt 1
  forInt h (fun row => forInt w fun col => paintGrayPixel luma color row col) gray

/-- images.cpp:42-46: the scope of the writer. Its destructor runs whether or not a call threw. -/
def imagesWrite (cfg : Cfg) (codec : Codec) (color gray : Tensor Elem) (p : Bytes) : SM Fs Unit := .mk fun fs =>
  let (output, fs) := fs.openOut p
  let result := Writer.writeAll cfg codec
    [(b!"color.npy", ⟨Elem, fixedOps .uint8, color⟩), (b!"gray.npy", ⟨Elem, fixedOps .float32, gray⟩)]
    (Writer.newFile output STORED .native)
  (result.1, if output.isOpen then fs.put p (Writer.destroy result.2).2.output.buf else fs)

/-- images.cpp:52-59: the calls on the reader; `header` is left as it was if the archive does not contain the file. -/
def imagesRead (cfg : Cfg) (codec : Codec) (header : HeaderInfo) : RM (HeaderInfo × Tensor Elem × Tensor Elem) := do
  let found ← SM.mk fun r => (.ok (r.contains b!"color.npy"), r)
  let header ← if found then Reader.peek cfg codec b!"color.npy" else pure header
  let color ← Reader.read cfg codec (fixedOps .uint8) b!"color.npy"
  let gray ← Reader.read cfg codec (fixedOps .float32) b!"gray.npy"
  pure (header, color, gray)

/-- What the program holds when it returns, and the first header it looked at. (images.cpp:26, 55, 58, 59) -/
structure ImagesResult where
  first : HeaderInfo
  header : HeaderInfo
  color : Tensor Elem
  gray : Tensor Elem

/-- images.cpp:3-63 `main`, with `h` by `w` in place of 32 by 32 -/
def imagesMain (cfg : Cfg) (codec : Codec) (luma : Elem → Elem → Elem → Nat) (h w : Nat) : SM Fs ImagesResult := do
  let color ← SM.lift (Tensor.new (fixedOps .uint8) [h, w, 3] false)
  let color ← SM.lift (paintColor color)
  savePath cfg (fixedOps .uint8) color .native b!"color.npy"
  savePath cfg (fixedOps .uint8) color .big b!"color.npy"
  color.savePath cfg (fixedOps .uint8) b!"color.npy"
  let first ← peekPath cfg b!"color.npy"
  let color ← loadPath cfg (fixedOps .uint8) b!"color.npy"
  let gray ← SM.lift (Tensor.new (fixedOps .float32) [h, w] false)
  let gray ← SM.lift (paintGray luma color gray)
  imagesWrite cfg codec color gray b!"test.npz"
  let input ← npzReadPath b!"test.npz"
  let (header, color, gray) ← SM.lift (imagesRead cfg codec first input).1
  pure { first := first, header := header, color := color, gray := gray }

end Npy
