import Verif.Model.ReaderAt
import Verif.Model.XcfDecode
/-!
# Decoding through the package image (xcf/decoder.go:16-38)

`image.Decode` and `image.DecodeConfig` of the standard library are given an `io.Reader`.  One without the method `Peek` is put into a new
`bufio.Reader`.  The next bytes are compared with the signature of each registered format, and the functions of the format that fits are called with
the `bufio.Reader`.  Not modelled: formats registered by others; readers with a method `Peek` that are not `*bufio.Reader`; a rewinding `Seek` that
fails; readers that return fewer bytes than there are (C78).
-/
namespace Limage

/-- A reader given to `image.Decode`: what it implements, all that the innermost reader holds, and how much of that has been read. -/
structure Stream where
  source : Source
  data : Bytes
  pos : Nat

/-- `image.asReader` of the standard library: a `*bufio.Reader` is used as it is -/
def asReader : Source → Source
  | .bufio r => .bufio r
  | r => .bufio r

/-- what comes of `image.Decode`: `image.ErrFormat`, `ErrNeedReaderAt`, or what the decoder returns -/
inductive Found (α : Type) where
  | unknownFormat
  | needReaderAt
  | decoded (r : α)

/-- xcf/decoder.go:16-34 `decodeConfig`, `decode`: the exported functions on the result of `GetReaderAt`.  Offsets of a `ReadAt` count from the
beginning of the innermost reader, not from where it has been read to. -/
def withReaderAt {α : Type} (f : Bytes → α) (r : Source) (data : Bytes) : Found α :=
  match getReaderAt 0 r with
  | .none => .needReaderAt
  | .direct => .decoded (f data)
  | .seeks _ => .decoded (f data)

/-- `image.sniff` of the standard library with the registration of xcf/decoder.go:36-38 (`fileTypeID` is the signature) -/
def sniffed {α : Type} (f : Bytes → α) (s : Stream) : Found α :=
  if (s.data.drop s.pos).take fileTypeID.length = fileTypeID then withReaderAt f (asReader s.source) s.data else .unknownFormat

/-- `image.Decode` with this package registered -/
def imageDecode (env : Env) (sch : Sched) (s : Stream) : Found (Outcome (Except Err (List Layer))) := sniffed (decodeImage env sch true) s

/-- `image.DecodeConfig` with this package registered -/
def imageDecodeConfig (s : Stream) : Found (Outcome (Config × Option Err)) := sniffed decodeConfig s

end Limage
