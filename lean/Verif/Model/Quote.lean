import Verif.Model.Text
import Verif.Model.XcfDecode
/-!
# Functions of package xcf that no exported function reaches

`quoteWriter` (xcf/text.go) is used nowhere; `ReadParasite` (xcf/parasites.go) only by the part of `ReadVectors` that cannot be
reached.
-/
namespace Limage

/-- xcf/text.go:192-205 `quoteWriter.WriteString` (and :188-190 `Write`): what is added to the buffer.  A byte that begins no
character is the character U+FFFD for the loop.  The first argument bounds the number of characters. -/
def quoteWriteSteps : Nat → Bytes → Bytes
  | 0, _ => []
  | _, [] => []
  | f + 1, b :: s =>
    match decodeRune (b :: s) with
    | none => [0xef, 0xbf, 0xbd] ++ quoteWriteSteps f s
    | some (w, c) =>
      (if c = 92 then lit "\\\\" else if c = 34 then lit "\\\"" else (b :: s).take w) ++ quoteWriteSteps f ((b :: s).drop w)

/-- with enough steps -/
def quoteWrite (s : Bytes) : Bytes := quoteWriteSteps s.length s

/-- xcf/text.go:204: the number of bytes that `quoteWriter.WriteString` returns; the error is nil -/
def quoteWriteCount (s : Bytes) : Nat := s.length

/-- xcf/parasites.go:67-79 `ReadParasite`. -/
def readParasite : M Parasite := do
  let name ← readString
  let flags ← readUint32
  let pplength ← readUint32
  let data ← readInto (List.replicate pplength.toNat 0)
  return ⟨name, flags, data⟩

end Limage
