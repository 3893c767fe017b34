import Verif.Model.Zip
import Verif.Model.Inflate
import Verif.Model.Deflate
/-!
# The compressor and decompressor of the ZIP layer
-/

namespace Npy

/-- zip.cpp:28-161: `npy_deflate` and `npy_inflate` as the ZIP layer calls them. `n` bounds the rounds of every loop; `j` is
what the memory the compressor gets from `malloc` holds. -/
def miniz (cfg : Cfg) (j : Junk) (n : Nat) : Codec :=
  { deflate := npyDeflate cfg.nativeBig (!cfg.ndebug) j n, inflate := npyInflate cfg.nativeBig n }

end Npy
