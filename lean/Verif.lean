import Verif.Model.Npz
import Verif.Model.Deflate
import Verif.Props.Header
import Verif.Props.Npy
import Verif.Props.Parse
import Verif.Props.Data
import Verif.Props.Tensor
import Verif.Props.Dtype
import Verif.Props.Npz
import Verif.Props.Crc
import Verif.Props.Hostile
import Verif.Props.Damage
import Verif.Props.Device
import Verif.Props.Limits
import Verif.Props.Fs
import Verif.Props.Threads
import Verif.Props.Inflate
import Verif.Props.Deflate
import Verif.Props.Custom
import Verif.Props.Replace
import Verif.Props.Peek
import Verif.Props.Foreign
import Verif.Props.InflateAll
import Verif.Props.Fill
import Verif.Props.Walk
import Verif.Props.Accept
import Verif.Validation
import Verif.Props.Memory
import Verif.Props.Crash
import Verif.Props.Images
import Verif.Props.CrcLimit
import Verif.Props.Program
import Verif.Props.Host
import Verif.Props.Size
import Verif.Props.Exhaust
import Verif.Props.Locale
import Verif.Props.Fits
import Verif.Props.LocaleNpz
import Verif.Props.Throwing
import Verif.Props.Globals
import Verif.Props.Resave
import Verif.Props.Boolean
import Verif.Props.TensorMem
import Verif.Props.Pointers
import Verif.Props.Buffered
import Verif.Props.Print
import Verif.Props.Witness
import Verif.Props.Together
import Verif.Props.HeaderObject
import Verif.Props.NewTensor
import Verif.Props.Extents
import Verif.Props.Ravel
