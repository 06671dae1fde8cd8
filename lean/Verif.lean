import Verif.Props.Composite
import Verif.Props.Color
import Verif.Props.HslShift
import Verif.Props.Raster
import Verif.Props.Image
import Verif.Props.Pixel
import Verif.Props.Rle
import Verif.Props.Compressed
import Verif.Props.Decode
import Verif.Props.Truncate
import Verif.Props.Skip
import Verif.Props.Schedule
import Verif.Props.Readable
import Verif.Props.Config
import Verif.Props.Encode
import Verif.Props.Layout
import Verif.Proofs.ReadPixels
import Verif.Spec.RoundTrip
import Verif.Proofs.ReadLazy
import Verif.Proofs.ReadLayers
import Verif.Proofs.ReadHead
import Verif.Proofs.ReadTree
import Verif.Proofs.ReadFile
import Verif.Props.RoundTrip
import Verif.Spec.FileSize
import Verif.Proofs.FileSize
import Verif.Proofs.ReadFail
import Verif.Props.RoundTripLoss
import Verif.Props.PixelBack
import Verif.Props.Limits
import Verif.Model.Text
import Verif.Spec.Text
import Verif.Spec.Markup
import Verif.Proofs.TextParse
import Verif.Proofs.TextWrite
import Verif.Proofs.TextTotal
import Verif.Proofs.Markup
import Verif.Props.Text
import Verif.Props.TextRead
import Verif.Props.TextMarkup
import Verif.Model.ReaderAt
import Verif.Spec.ReaderAt
import Verif.Props.ReaderAt
import Verif.Model.Ora
import Verif.Spec.Ora
import Verif.Proofs.OraRead
import Verif.Proofs.OraWrite
import Verif.Props.OraRead
import Verif.Props.OraWrite
import Verif.Proofs.OraExample
import Verif.Proofs.Thumbnail
import Verif.Props.Thumbnail
import Verif.Spec.Steady
import Verif.Props.Indexed
import Verif.Model.AtRace
import Verif.Props.AtRace
import Verif.Props.Coverage
import Verif.Props.Again
import Verif.Props.Looks
import Verif.Spec.Png
import Verif.Proofs.Png
import Verif.Proofs.OraPng
import Verif.Props.OraPixels
import Verif.Spec.XcfAny
import Verif.Proofs.AnyPixels
import Verif.Proofs.AnyLayers
import Verif.Proofs.AnyFile
import Verif.Props.AnyFile
import Verif.Props.Accepted
import Verif.Props.MarkupStyle
import Verif.Props.Grouping
import Verif.Model.Registered
import Verif.Props.Registered
import Verif.Props.Draws
import Verif.Props.Merged
import Verif.Model.Paths
import Verif.Props.Paths
import Verif.Props.TextString
import Verif.Props.PixelClose
import Verif.Props.OraForeign
import Verif.Props.Rearrange
import Verif.Props.ThumbPlace
import Verif.Props.Over
import Verif.Props.Clear
import Verif.Props.Neutral
import Verif.Props.Files
import Verif.Props.Ideal
import Verif.Props.Stored
import Verif.Props.OraNear
import Verif.Props.PixelBound
import Verif.Props.OraAgain
import Verif.Props.Inside
import Verif.Props.EitherWay
import Verif.Props.MinMax
import Verif.Props.SubSub
import Verif.Props.OraToXcf
import Verif.Props.XcfToOra
import Verif.Props.OraCut
import Verif.Props.Previews
import Verif.Props.OraFail
import Verif.Props.XcfResave
import Verif.Props.MarkupBack
import Verif.Props.Wrap
import Verif.Props.OraEntries
import Verif.Props.OraConfig
import Verif.Props.Grows
import Verif.Props.Carried
import Verif.Props.OraInside
import Verif.Props.Documented
import Verif.Props.OraDocumented
import Verif.Props.QuoteWriter
import Verif.Props.Lighten
import Verif.Proofs.ReadEnd
import Verif.Proofs.Within
import Verif.Props.Cut
import Verif.Proofs.RleShort
import Verif.Props.Compact
import Verif.Props.Masks
import Verif.Props.Negative
import Verif.Props.Beginning
import Verif.Props.SameFile
import Verif.Props.Brighter
import Verif.Props.Fade
import Verif.Props.Exact
import Verif.Props.Flatten
import Verif.Props.Hue
import Verif.Props.Paint
import Verif.Props.Component
import Verif.Props.Lightness
import Verif.Model.Failing
import Verif.Proofs.Failing
import Verif.Proofs.FailTotal
import Verif.Props.ReadFailures
import Verif.Props.FailingReturns
import Verif.Props.Merge
import Verif.Props.SameFlat
import Verif.Props.FewReads
import Verif.Props.FewLayer
import Verif.Props.ThumbShape
import Verif.Props.FewWrites
import Verif.Props.Odds
import Verif.Props.Turned
import Verif.Props.Through
import Verif.Props.Pieces
import Verif.Props.Loops
import Verif.Props.TextLoop
import Verif.Props.Spread
import Verif.Props.Larger
import Verif.Props.Seen
import Verif.Props.PaletteOnly
import Verif.Props.Background
import Verif.Props.GroupOutside
import Verif.Props.OnCanvas
