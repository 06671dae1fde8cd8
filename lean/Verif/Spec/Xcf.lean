import Verif.Model.Reader
/-!
# XCF files, as documented

Independent of the decoder: the signature and the versions.
-/
namespace Limage.Spec

/-- "gimp xcf " -/
def magic : Bytes := [0x67, 0x69, 0x6d, 0x70, 0x20, 0x78, 0x63, 0x66, 0x20]

/-- "file" and "v001" to "v013" -/
def supported : List Bytes :=
  [0x66, 0x69, 0x6c, 0x65] ::
    ((List.range 13).map fun k => [0x76, 0x30, UInt8.ofNat (0x30 + (k + 1) / 10), UInt8.ofNat (0x30 + (k + 1) % 10)])

/-- the file starts with the signature, a supported version, and a zero byte -/
def HeaderOk (D : Bytes) : Prop := ∃ v ∈ supported, (magic ++ v ++ [0]) <+: D

/-- Why the header is wrong, in the order of the checks: too short, not an XCF file, a version that
is not supported, no zero byte behind it. -/
def headerFault (D : Bytes) : Option Err :=
  if D.length < 14 then some .eof
  else if D.take 9 ≠ magic then some .invalidFileTypeID
  else if (D.drop 9).take 4 ∉ supported then some .unsupportedVersion
  else if D[13]? ≠ some 0 then some .invalidHeader
  else none

end Limage.Spec
