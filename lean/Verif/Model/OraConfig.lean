import Verif.Model.Ora
/-!
# The whole result of `DecodeConfig` of OpenRaster files

`/repo/ora/decode.go:107-133`.
-/
namespace Limage

/-- `image.Config` (decode.go:128-132) -/
structure OraConfig where
  colorModel : ColorModel
  width : Int
  height : Int
deriving DecidableEq, Inhabited

/-- decode.go:107-133 `DecodeConfig`, with the colour model, which is `color.NRGBAModel` (here `.other`) -/
def oraConfig (env : OraEnv) (files : List ZipEntry) : OraRes OraConfig := do
  let (w, h) ← oraDecodeConfig env files
  return ⟨.other, w, h⟩

end Limage
