# Formal model of MJKWoolnough/limage in Lean 4

Status of each claim: `MANIFEST.json`.  Property list: `properties.jsonl`.
Wrong-program experiments: `seeded/LOG.jsonl`.

## Layout

| where | what |
|---|---|
| `lean/Verif/Model/*` | executable model of the Go code, one Lean file per Go file or group of files; every definition cites file and lines in /repo |
| `lean/Verif/Spec/*` | small specifications, independent of the model's helpers, that the theorems are stated against |
| `lean/Verif/Proofs/*` | helper lemmas |
| `lean/Verif/Props/*` | the property theorems `Cnn_*`, each followed by an `example` showing its hypotheses are met |

Conventions: a theorem `Cnn_xxx` belongs to property Cnn.  `Cnn_xxx_partial` proves part of the
property (the docstring says what is missing).  `Cnn_xxx_refuted` proves that the property as
stated is false of the code, with a concrete witness that is a legal input.

## How Go is modelled

* Fixed-width integers: Lean `UInt8/16/32/64`, which wrap exactly as in Go.  `int`/`int64`
  are unbounded `Int`/`Nat`; where overflow of `int` matters it is said at the definition.
* Panics and non-termination are values: a partial Go function returns `Option` (none = panic)
  or `Outcome` (`ok`/`panic`/`hang`).  Division is guarded explicitly where Go would panic.
* `image.Image` is an inductive type with one constructor per dynamic type the code
  distinguishes, plus one for "any other implementation" given by arbitrary `Bounds`, `At`,
  `ColorModel`.  `color.Color` likewise, "any other" being given by its `RGBA()` values.
* Random draws, map iteration order, goroutine schedules, and failures of the writer or seeker
  are universally quantified parameters.
* Slices with aliasing (SubImage, makeImage) use an explicit heap of arrays.
* Loops whose number of steps is not bounded by a list carry fuel, and running out of it is `hang`;
  the fuel given by the callers is proved to be enough wherever a property depends on it.
  The two places where the model says `hang` at once instead of repeating a step that changes nothing
  (`tileLoop`, `valueRun`) are related to the loops as they are written in `Props/Loops` and `Props/TextLoop`.
* Goroutines are interleavings of atomic steps (`Model/Schedule`, `Model/ReaderAt`,
  `Model/AtRace`); memory is sequentially consistent, which is what Go gives to programs without data
  races.  `At` of compressed images has data races (C83), where Go promises less still.
* `io.ReaderAt` is a byte string; `ReadAt` returns EOF only when it returns fewer bytes than asked.
  Sources whose calls fail at any time, with any error, are in `Model/Failing`; C154 says that the
  decoder returns the same picture or no picture, so the other theorems speak of them too; C155 that it returns.
  `io.WriterAt` is the log of `WriteAt` calls, with an oracle deciding which fail and how far they got.

## Plan per property

| id | model | proof |
|---|---|---|
| C01-C03, C05 | `Model/Color`, `Model/Composite`: UInt32 arithmetic as in composite.go | reduce to Nat, prove no overflow, floor-division algebra |
| C04 | divisions guarded (`none` = Go panic) | show every divisor is non-zero |
| C06 | as C05 | false (green/blue use the bottom's red): refuted; partial: red channel, and all channels over a grey bottom |
| C07, C68, C71 | as C05 | per-function equality with a rational-free spec; C68 refuted, what is computed is proved |
| C08-C10 | as C05 | false (wrap-around, wrong operand): refuted; the regions where they hold are proved |
| C11 | as C05 | false (all are Normal): refuted; partial: what they do compute |
| C12 | as C05 | case analysis on the mode |
| C13 | random draw is a parameter | first half proved; second half refuted (the draw is compared with the wrong alpha) |
| C14-C16, C70 | `Model/Color` (HSV, HSL) | sector by sector error bound; C16 refuted for coloured pixels |
| C17-C20, C69, C72 | `Model/Color` | arithmetic; C18 GrayAlpha half refuted |
| C21-C23, C73 | `Model/Raster`: heap of pixel arrays, images are (array, offset, stride, rect) | refinement to a map from points, induction over operations; C23 refuted for PalettedAlpha and for sub-images, partial |
| C24-C28 | `Model/Geom`, `Model/Image` | induction on layer lists; C28 refuted, partial when the corner is kept |
| C29-C31 | `Model/Rle` | chunk invariant, induction on input; fuel proved sufficient |
| C32-C33 | `Model/XcfImage` | simulation of the eager tile loop by the lazy one, cache invariant; C33 refuted, partial for one channel |
| C34-C36 | `Model/Writer`, `Model/XcfEncode`: log of WriteAt calls | permutation to a contiguous chain; induction over the tree; `Spec/XcfFile` is the layout of a file as a relation |
| C37-C44, C52 | encoder and decoder models | the decoder run on any byte string with the layout of C36 (`Sees`, `Consumes`), induction over the tree |
| C45, C48, C49 | decoder model on arbitrary bytes; `Spec/XcfProps` has the documented payloads | symbolic execution of the reader monad; C48 by monotonicity of every reading function in the input |
| C46, C47 | `hang` and `panic` outcomes; `Props/Loops` has the loops over tiles with their 32-bit counters | measure argument; refuted with witness files; partial; `C46_loops`, `C46_images`: `tileLoop` is what the loops as written do after enough turns, and its `hang` means that no number of turns is enough |
| C50 | heap model of makeGroups/makeImage | invariant over any iteration order |
| C51 | interleaving of goroutine steps | invariant, induction over schedules |
| C53 | At on decoded rasters | refuted (palette index, two groups in one place); partial |
| C54-C56, C75-C77 | `Model/Text`: writer, tokeniser, parser, markup | induction over strings and token lists |
| C57-C58, C78 | `Model/ReaderAt` state machine with a mutex | invariants over all interleavings; refuted, partial |
| C59-C67, C79, C80 | `Model/Ora`: archive = named entries, stack.xml = token stream; PNG, XML and floating point are parameters with stated laws | induction over trees and token streams |
| C81, C82 | `Model/Image`, `Spec/Steady`: images with a palette; images without Dissolve | induction over layers and over the writing computation |
| C83 | `Model/AtRace`: interleaved calls of `At` sharing the buffer of a compressed image, one memory access per step | invariant over the steps of calls in one tile; a schedule of two calls in different tiles |
| C84 | `Model/Composite`, `Model/Image` | cases over the modes (from C02, C05, C12, C13, C14), then induction over the layers |
| C85 | encoder and decoder models | what comes back from a file meets the conditions of C37 again (also the palette of indexed files: the colours read are found again at distance 0); transfer of each condition by induction over the tree |
| C86 | encoder, decoder and Image models | C37_tree and `composite` depending only on the 16 bit non-premultiplied colours of its arguments; induction over the tree: same pixels of the leaves give the same pixels of the picture |
| C87 | ORA encoder and decoder, law `PngPixels` of image/png | what is read of each leaf (C61_back) and, for each of the six formats PNG files can have, arithmetic bounds on the change of each channel |
| C88 | the same, Image models | C60, C61 and C87 for each layer; induction over the tree as for C86 |
| C89, C90 | decoder model; `Spec/XcfAny`: the documented format of all versions as a relation between bytes and layers, with properties in any order | symbolic execution of the reader monad as for C37, C38; each property changes only its own field |
| C91 | decoder model; `Props/Accepted`: images at any depth, their pixels and masks | inversion of every successful run of the reader monad; invariants of `makeGroups` kept by each layer |
| C92 | `Model/Text`: writer of markup; `Spec/Markup`: styles given by elements | one step lemma for each optional element |
| C93 | `Model/Image`; `Props/Grouping`: results that look the same, the group around layers | colours equal up to transparent ones are kept by every mode but Color |
| C94 | `Model/Registered`: image.Decode around `GetReaderAt`; `Props/Registered`: what is recognised | cases on the kind of reader, C45 and C43 for the signature |
| C95 | `Model/Ora`; `Spec/Png`, `Props/Merged`: `png.Encode` looks at all pixels of a group | C97 and C96 give what the PNG laws ask for |
| C96 | `Model/Image`; `Props/Draws`: number of Dissolve layers seen | structural induction with two random sources |
| C97 | `Model/Image`, `Model/Composite` | every mode returns NRGBA64, HSVA or HSLA colours (C17) |
| C98 | `Model/Paths`; `Spec.StoredPath` in `Props/Paths` writes paths as the format has them | bytes are consumed step by step (`Consumes`); up to the panic, everything `ReadVectors` does returns |
| C99 | `TextData.string` in `Model/Image`; `Spec.textIn`, `markupIn`, `characters` in `Props/TextString` | induction over the tokens and over the tags (last one wins); C54 for round trips |
| C100 | `Model/Ora`; `Props/OraForeign`: `Spec.OraAttrs` (what attributes say), `Describes` (layers), `Means` (picture), `Archive` | induction over the attributes (in any order) and over the document (`readNodes`) |
| C101 | `Model/Image`; `Spec.moved` in `Props/Rearrange` | induction over the layers |
| C102 | `Model/Image`; `Spec.Apart`, `Exchanged` in `Props/Rearrange` | a point is in at most one of two layers that are apart |
| C103 | `Model/Composite`, `Model/Image`; `Spec.Light`, `over`, `flatten`, `LightClose` in `Props/Over` (rationals) | error bound for one layer, then induction: over does not enlarge differences |
| C104 | `Model/Image`; `Spec.sensitive`, `hidden` in `Props/Clear`; `Looks`, `SameOutcome` of C93 | cases over the modes for a clear top, then C93's induction over the layers above |
| C105 | `Model/Composite`; `Spec.neutrals`, `symmetricModes`, `grey` in `Props/Neutral` | integer formulas of the modes |
| C106 | `Model/Writer`, `Model/XcfEncode`; `Spec/FileSize` | every step of the encoder writes at most so many bytes (`AtMost`), and each byte once (C34) |
| C107 | `Model/XcfEncode`, `Model/XcfDecode`; `Spec.StoredBy` in `Props/Files` | corollary of C86 |
| C108 | `Model/Image`, `Model/Composite`; `Spec.ideal`, `Smooth`, `intensityError`, `coverageError` in `Props/Ideal` (exact rational arithmetic, no rounding) | structural induction on the tree of layers; the rounding of each step (C72, C103) is added up |
| C109 | `Model/XcfEncode`, `Model/XcfDecode`, `Model/Image`; `Spec.Rooted` in `Props/Stored` | C37 (same tree), C38 (pixels up to 512/65535) and the induction of C108 with the error of the file at the leaves |
| C110 | `Model/Ora`, `Model/Image`; `Spec.Solid`, `Roundable` in `Props/OraNear` | C60, C61 (same tree, same places), PNG pixels up to 512/65535 and the induction of C108 |
| C111 | `Model/XcfDecode`, `Model/XcfImage`; `Spec.area`, `Spec.layersInAll` in `Props/PixelBound` | every tile and every layer has a pointer of its own in the file, which was read without error; each layer read is in one place of the tree |
| C112 | `Model/Ora`; `Spec.PngKind.again`, `Spec.Rereads`, `Spec.Every`, `SameLayer` in `Props/OraAgain` | what is read is cleaned (names), opaque, has modes of OpenRaster and pictures that PNG keeps; then C60, C61 and C88 for the second file |
| C113 | `Model/XcfEncode`, `Model/Image`; `Spec.Seen`, `Spec.SeenAll`, `Spec.Indist` in `Props/Inside` | induction over trees: `At` asks only for points inside drawn layers, `WriteImage` only for points inside the bounds; colours are used only through functions that `Indist` preserves |
| C114 | `Model/Raster`, `Model/XcfEncode`; `Raster.leaf` in `Props/Inside` | C22: the part shows the zero pixel outside; counterexample: a layer of two pixels cropped to one |
| C115 | `Model/XcfDecode`, `Model/XcfImage`, `Model/XcfEncode`; `Spec.Seen` of C113 | relation of layers, group states and trees carried through `makeGroups` and `makeImage`; pixels by C32, writes by C113; both counterexample files |
| C116 | `Model/Color` | folds over the list; Mid exactly where the sum fits 16 bits |
| C117 | `Model/Raster`, `Model/Image`, `Model/Geom` | intersection is associative and commutative (rectangles with the same points are equal); offsets add |
| C118 | `Model/Ora`, `Model/XcfEncode`, `Model/XcfDecode` | what `ora.Decode` returns (only decoded images and groups, only OpenRaster modes) meets the conditions of C37 and C86; the six modes without a number are lost |
| C119 | `Model/XcfImage`, `Model/XcfDecode`, `Model/Color` | `Framed` (C91) with a condition on the colours of each image type; the palette has only RGB colours |
| C120 | `Model/XcfDecode`, `Model/Ora` | colours by C119, so PNG files keep them; images of decoded layers start at the origin; then C88. Refuted with a concrete file of one transparent layer |
| C121 | `Model/Ora` | every reader of tokens reads a prefix, does the same with any continuation, and breaks off within it; composed along `decodeTokens` |
| C122 | `Model/Ora`, `Model/Image` | `PngPics`: PNG files keep what `At` tells, for layers and thumbnails as well; then `transparency_alpha` and `back_near`; columns by C67 |
| C123 | `Model/Ora` (`oraLeft`) | the entries left are those of the layers up to the failing one (`leftLayers_some`, `leftLayers_none`); `getStack` finds no stack, or `read_group` reads all |
| C124 | `Model/XcfDecode`, `Model/XcfEncode` | what layers are read as (`decode_labels`), hence they are plain (`plainLayers`) and the round trip of C43 applies; a file of 56 (Luminance) is evaluated |
| C125 | `Model/Text` (`fmtHex2`) | induction over the digits (`hexDigits_number`); the elements of C92 have one background; lengths modulo 3 |
| C126 | `Model/Image`, `Model/Composite` | drawing onto nothing gives the colour or nothing (`normal_clear`); the colour of a fully transparent top does not matter (`clear_top_same`) |
| C127 | `Model/Ora` | tokens left are a suffix of the tokens (`readStack_suffix`), so all names asked for are in the document; looking up a name in filtered entries; induction along `readStack` |
| C128 | `Model/Ora`, `Model/OraConfig` | both functions start with `oraStart`; layers are on the canvas (C65), so the smallest rectangle is (C24). Refuted with small archives |
| C129 | `Model/Composite`, `Model/Image`; `Spec.Fainter` in `Props/Grows` | each mode is monotone in both alphas (`composite_mono`, from C02, C05, C14), so is one step of drawing (`draw_mono`); induction over the tree |
| C130, C131 | `Model/Composite`, `Model/Image`; `Spec.Paired`, `Carries`, `Grey` in `Props/Carried` | relations between colours that every step of drawing keeps are kept by pictures (`at_paired`); each mode keeps `Carries` or greys (`carries_alikely`, `grey_composite`) |
| C132, C133 | `Model/Ora`, `Model/Raster`; `Spec.PngInside`, `SeenInput`, `SmallOrLayered` in `Props/OraInside` | the relation of C113 through `writeLayers`, `writeStack` and the previews; a law of `png.Encode` stands for the files of images |
| C134 | `Model/XcfEncode`; `Spec/XcfFile`, `Spec/XcfAny`; `Spec.documented`, `documentedModes` in `Props/Documented` | the file of C36 is one of those that C89 reads (`fileAt_in`); that other modes are not stored as documented follows from what C89 would read |
| C135 | `Model/Ora` (`stackAttrs`, `writeStack`); `Spec.Documents`, `StackXml`, `PngIs`, `Sayable` in `Props/OraDocumented` (`OraAttrs` as for C100) | induction over the tree; the document is what is given to the XML writer, nothing is assumed of how it is read |
| C136 | `Model/Quote` (`quoteWriter`, used by no other function), `Model/Text`; `Spec.Chars` in `Props/QuoteWriter` | induction over the characters; C75 for reading |
| C137 | `Model/Quote` (`ReadParasite`, called only behind the panic of `ReadVectors`), `Model/XcfDecode` | bytes are consumed step by step; one turn of `ReadParasites` |
| C138 | `Model/Composite`, `Model/Image`; the lists of lightening and darkening modes are in `Spec` | per-channel inequalities, `blend` is between its arguments less one, induction over the upper layers |
| C139 | `Model/XcfEncode`, `Model/XcfDecode`; `Proofs/Layout` also follows where the last layer ends (`FileEnd`) | reading the last layer ends at the end of the file (`Proofs/ReadEnd`), and inside the source if there is no error (`Proofs/Within`); C48 for the longer file |
| C140 | `Model/Rle`, `Model/XcfEncode`; the format is `Spec.Encodes`, `Spec.Flat` says that an image has one colour | the number of bytes not followed by two of the same is below the length of every encoding and at least half that of the one written (`Proofs/RleShort`); `Proofs/FileSize` for any bound on the pixels |
| C141 | `Model/Image`, `Model/Color`; the specification is the product of the masks' values (`Spec.share`) | induction over the masks, each of which loses less than one step; `C20_opacity` |
| C142 | `Model/Composite`, `Model/Image`; `Spec.negative`, `Spec.opposites` | arithmetic of each pair of modes; induction over the layers |
| C143 | `Model/XcfDecode`, `Model/Reader`; the documented head | two readers in step over the head; the extension lemmas of C48; the written head |
| C144 | `Model/XcfEncode`, `Model/XcfDecode`; `Spec.Native`, C37, C113, C124 | what is loaded cannot be told from what was saved, so that C113 applies; pictures without groups (`Props/SameFlat.lean` for grey and indexed ones): what a stored pixel is loaded as is stored as the same bytes |
| C145 | `Model/Composite`, `Model/Image`; `Spec.Brighter`, `Spec.Paired` | every step of drawing is monotone; the modes are treated one by one |
| C146 | `Model/Composite`, `Model/Image`; `Spec.OnTheWay`, `Spec.NotBack` | over something opaque every mode but six blends what is below with a colour that does not depend on the opacity; the rest is arithmetic of the two roundings |
| C147 | `Model/Composite`, `Model/Image`; `Spec.Coats`, `Spec.coated` | the formulas of these modes do not magnify differences; each layer adds four steps: two for `blend`, one for the opacity, one for the formula |
| C148 | `Model/Composite`; `compositeString` | the 28 names are compared by the kernel (a finite table), all other numbers by C12 |
| C149 | `Model/Image`; `Spec.Spot`, `Spec.FlatCopy`, `Spec.Indistinguishable` | induction on the place within the picture; C96 for the flattened part |
| C150 | `Model/Color` (`colourToHue`, `rgbToHSV`, `rgbToHSL`); `Spec.hexHue`, `Spec.chroma`, `Spec.IsFloor`, `Spec.IsHue` | the angle as a natural number for each of the six sectors, compared with the rational definition |
| C151 | `Model/Image`, `Model/Raster`; `Spec.Spot.point`, `Spec.DifferOnlyAt` | induction on the place of the image within the picture; C21 for the painted image and those that share its pixels |
| C152 | `Model/Composite`, `Model/Color`; `Spec.hexHue`, `Spec.saturation`, `Spec.HuesNear` | the channels of an HSV colour in each of the six sectors, as fractions; C150 for the components taken |
| C153 | `composite` (Color, Luminosity), `HSLA.toNRGBA`; `Spec.lightness`, `purity`, `Recoloured` | shape of a colour with given hue, chroma and minimum (shared with C152) and bounds on the two roundings; refuted in general |
| C154 | `Model/Failing`: the decoder over a source with a plan of failures | lockstep relation between every reading function and its copy over a faultless source, closed under sequencing; an error is never lost, so no error at the end means none on the way |
| C155 | `Model/Failing.lean`; `Spec.TextIn`, `NoWrap`, `FineSizes` | the termination proofs of C46 and C47 over the failing source: what is left to read goes down or an error is set, after which only zeros are read (`Proofs/FailTotal.lean`); sizes and texts that lead anywhere were in the file, by the lockstep of C154 |
| C156 | `Model/Composite`, `Model/Image`; `Spec.merged`, `Spec.coated`, `Spec.AnyOrder` | opaque layers: the channel functions folded over the layers are sums, minima and maxima, which do not depend on the order; Multiply and Screen: in exact arithmetic every layer is a factor, and C147 bounds the distance from it |
| C157 | `Model/Failing` | what was read plus what may still be read never grows: a call that succeeds uses up a byte, one that fails is the last (`Failing.Cheap`); in a layer, each jump to another place allows reading what follows there again, and there are at most as many as pointers in the file (`Failing.Jumps`) |
| C158 | `Model/Ora` `thumbPic`, `Pic.bounds`; `Shrinks`, `ShrinksDown` | the bounds are rounded toward zero (`thumb_bounds`), which changes each by less than a point |
| C159 | `Model/Writer`, `Model/XcfEncode` | `Thrifty`: calls at most bytes, closed under sequencing; a length of four bytes pays for an empty string; the bytes handed over are counted by position |
| C160 | `Model/Composite`, `Model/Image`; `Spec.outcomes` counts values of the random source | the layer shows iff the value is below the alpha of the bottom (`dissolve_iff`); counting; C96 for what is below |
| C161 | `Model/Image`; `Spec.Rearrangement`, `mirror`, `transpose`, `enlarge`, `rearranged` in `Props/Turned` | one induction over the tree for all rearrangements under which rectangles, unions and relative positions behave (`Sane`) |
| C162 | `Model/Image`, `Model/Composite`; `Spec.through`, `PassesThrough` in `Props/Through` | a pass-through group is composited as a Normal one; C93's lemmas where nothing is below; in indexed pictures each layer covers a pixel or leaves it (`layersAt_indexed`); refuted by a grey Multiply layer in a group over grey |
| C163 | `Model/Image`; `Spec.PiecesOf`, `Tiles`, `pieceIn`, `CutsCleanly` in `Props/Pieces` | at each point one piece shows what the layer shows and the others nothing; refuted for `SubImageLayer`, which does not move the image |
| C164 | `Model/Image`; `Spec.groupedIn`, `spread`, `SideBySide`, `SpreadsOut` in `Props/Spread` | at each point one layer shows or none; a colour drawn on nothing stays as it looks and its opacity with it; refuted for each `sensitive` mode |
| C165 | `Model/Image`; `Spec.groupedIn` in `Props/Spread`, `SizeFree` in `Props/Larger` | inside both bounds the group shows the same, elsewhere none of its layers shows and a transparent pixel leaves what is below; refuted for each `sensitive` mode |
| C166 | `Model/Image`; `Spot` in `Props/Flatten`, `Spec.LooksAlike`, `Spot.holder`, `SeenOnly` in `Props/Seen` | two colours that are equal or both transparent stay so through opacity and masks, and drawn in a mode that is not `sensitive` they give the same colour; from there on everything is equal; mode Color by itself; refuted for each of the other four modes |
| C167, C130 for files | `Model/Image`, `Model/XcfDecode`; `Spec.FromPalette`, `PaletteOf`, `HardEdges`, `NoneOver` in `Props/PaletteOnly` | what opacity and compositing keep, the trees of accepted files keep (`finished_keeps`): greys in grey files; palette colours in indexed files if layers are side by side, as opacity changes alpha only and Normal over nothing is the layer itself; with overlapping layers if pixels are opaque or invisible, as the modes of indexed files, Normal and Behind, make no new colour from those; refuted by an indexed file with half transparent red over blue |
| C168 | `Model/Image`, `Model/XcfDecode`; `Spec.OpaqueAt`, `StaysOpaque` in `Props/Background` | Normal over anything is opaque where the layer is, and no mode but Color takes coverage away (C84); layers of grey and indexed files without alpha have opaque colours, and the lowest of a file is drawn in mode Normal; refuted with a transparent layer in mode Color above |
| C89 for groups outside the canvas | `Spec/XcfAny`, `Props/AnyFile` | a file that is well formed by the same description (`groupOutside_file`) and whose picture is read without its pixel |
| C169, C65_outside | `Model/XcfDecode`, `Model/Image`, `Model/Ora` | width and height are bytes 14 to 21 of the file (`readHead_canvas`); layers on top are cut to them, so the bounds are inside and no layer is seen outside |
| C74 | `Model/XcfEncode` | induction over the tree: no step of the encoder is `none` |

## Trusted base

What has to be believed:

* The Lean 4.33.0 kernel, and Mathlib's definitions where theorems mention them (only tactics and
  lemmas of Mathlib are used, no structures of it occur in statements).
* The axioms `propext`, `Classical.choice` and `Quot.sound`.  No theorem uses another one; which
  theorem uses which is listed at the end of this file (made with `#print axioms`).
* That the definitions in `Verif/Model` say what the Go source says.  They were written by reading;
  nothing was executed.  Every definition cites the lines.
* That the specifications in `Verif/Spec` mean what the property says.

Library code is not in /repo and was modelled from its documentation:

| library | how |
|---|---|
| `image`, `image/color` | rectangles (`Model/Geom`), colours and their conversions (`Model/Color`), `Palette.Index`, `image.Gray`, `NRGBA`, `Paletted` as maps from points |
| `io.SectionReader`, `io.ReadFull`, `io.CopyN` | `Model/Reader`, `Model/Rle`; `ReadAt` fails only at the end of the data; at any time in `Model/Failing` |
| `byteio` sticky readers and writers, `memio` | `Model/Reader`, `Model/Writer`: after the first error nothing is read or written |
| `math.Ceil(float64(n)/64)` | exact for 32-bit numbers |
| `uint8(f*255)` for a `float32` | a parameter (`Env.floatOpacity`), any function |
| Go runtime | `make` panics above 2^48 bytes; memory is otherwise unlimited; map order and goroutine order arbitrary |
| `vimagination.zapto.org/parser` | tokens and phrases as in parasites.go, on bytes (`Model/Text`) |
| `fmt` `%q`, `%d`, `%02X`, `strconv.ParseUint`, `html.EscapeString`, `utf8` | defined (`Model/Text`, `Model/Reader`); the table of printable characters above 0xff and `ParseFloat` are parameters |
| `encoding/xml` reading | for XCF markup: any list of tokens; for ORA: a function of the file (`OraEnv.xmlRead`) |
| `encoding/xml` writing and reading back, `image/png`, `archive/zip` | `OraEnv` with the laws `Spec.OraLib`: what was written is read as it was written, attributes cleaned of what XML does not allow, a PNG that was written can be read and has the size of the image; `Spec.PngWrites`: PNG refuses empty images only; `Spec.PngPixels`: which of six formats is used follows from the colour model and whether the image says it is opaque, and the pixels are rounded as that format does; `Spec.Rereads` (C112): an image that was read is written with as many bits as it was read with, and says rightly whether it is opaque |
| `strconv.ParseFloat`/`FormatFloat` and float64 division (ORA) | parameters; `Spec.Divides` says the quotient is rounded as IEEE 754 says |

The laws are hypotheses of the theorems that use them, and `Proofs/OraExample` has a concrete
library that satisfies all of them.

Not modelled: running out of memory below the allocation limit, overflow of `int` (64 bits) in
coordinates, `Read` and `Seek` calls that do not return, content of a reader that changes while it is
read, memory
orderings other than sequential consistency.

## What the proofs found in the code

| where | what | theorem |
|---|---|---|
| composite.go:171-176 | green and blue of separable modes use the red of the bottom layer | C06_green_local_refuted |
| composite.go (burn) | subtraction wraps, dark becomes white | C08_burn_refuted |
| composite.go (hard light) | wraps at 0x7fff | C09_hardlight_refuted |
| composite.go:214 | overlay uses 1-y twice | C10_white_refuted |
| composite.go | Porter-Duff modes are all Normal | C11_porter_duff_refuted |
| composite.go:194 | Dissolve compares with the alpha of the wrong layer | C13_follows_top_refuted |
| composite.go (grain merge) | adds the mid grey | C68_grain_merge_refuted |
| lcolor/hsl.go | HSL does not convert back | C16_hsl_refuted |
| lcolor/gray.go | converting translucent greys twice changes them | C18_gray_refuted |
| grayalpha.go, indexedalpha.go | Opaque is wrong for sub-images, and inverted | C23_*_refuted |
| layer.go:36-40 | sub-images of layers move their pixels | C28_subimage_refuted |
| rle.go | literals cut by the section limit are not an error | C31_refuted |
| rle.go, image_decode.go | DecodeCompressed refuses runs over channel ends | C33_refuted |
| encoder.go, decoder.go | layers off the canvas are clipped, the canvas starts at the origin | C37_refuted |
| image_encode.go:88-93 | indexed colours use the low bytes of 16-bit values | C38_refuted, C42_indexed_refuted |
| layer_encode.go, layer_decode.go | modes without a number; mode of the lowest layer | C39_refuted, C39_bottom_refuted |
| encoder.go:98-109 | a plain image is written with an empty layer around it | C40_refuted |
| layer_decode.go:246-262, channel.go:23 | masks off the origin are rejected; masks crash DecodeCompressed | C41_*_refuted |
| decoder.go:91 | DecodeConfig does not skip the precision of versions 4 to 10 | C43_refuted |
| reader.go:18 | files are cut off at 16 MiB | C44_refuted |
| image_decode.go:156 | loop counter wraps: endless loop | C46_refuted |
| decoder.go, image_decode.go | sizes and base types that panic | C47_refuted |
| decoder.go:250-290, skip.go | guides, sample points, colour maps, vectors are skipped by the wrong length | C49_refuted |
| decoder.go:377-404 | two groups in one place: a layer without image | C53_refuted |
| decoder.go:397-404 | layers in a group that begins left of or above the canvas are moved: they are placed by where the group began, which is cut | C89_group_refuted |
| text.go, parasites.go | colours, escapes and empty texts are lost; nil base colour crashes; endless loop on unknown characters; panic on a tag without value | C46_text_refuted, C54_*, C55_refuted, C76_* |
| text.go:269-272 | the background is written with 16 bits a channel and never read | C92_refuted |
| text.go:299-312 | sizes from 2^22 on overflow when multiplied by 1024 | C92_size_refuted |
| composite.go, mode Color | takes the lightness of the pixel below even where that is fully transparent | C93_refuted |
| image.go, pictures with a palette | a pixel of a layer counts as drawn or not drawn by its own alpha; a group of layers without palette is composed first | C93_mixed_refuted |
| decoder.go:16-38, bufioToReader.go:48-62 | a picture that is not at the start of the reader is recognised where the reader is, and decoded from the start | C94_position_refuted |
| decoder.go:16-38 | readers without ReadAt and Seek are recognised, so that no other format is tried, and refused | C94_reader_refuted |
| image.go:15-21, ora/encode.go:101 | a picture has the colour model of its first layer, so that a coloured or translucent picture with a grey first layer gets a grey, opaque merged image | C95_grey_refuted |
| xcf/vectors.go:48-49 | `ReadVectors` writes to element `n` of a list of `n` paths, so it panics unless there are none (no other function calls it) | C98_vectors_refuted |
| text.go:276-283 | fonts are not escaped for XML | C56_refuted |
| bufioToReader.go | position of a seeker assumed to be 0; mutex kept after a failed seek; short reads without error | C57_refuted, C58_refuted, C78_refuted |
| ora/encode.go, stack.go | transparency lost; negative positions lost; groups move their layers; plain images unreadable; error of Close dropped | C60-C63, C79 |
| xcf/compressed.go | calls of At at the same time return pixels of other tiles, and spoil the buffer for later calls | C83_refuted |
| composite.go:336 | a Color layer uncovers what is below where it is itself transparent | C84_refuted |
| image.go:50-56 | below a layer with a palette, half covered pixels of layers without one are lost even where it does not show | C84_stack_refuted |
| xcf/image_encode.go (grayAlphaToBuf) | half transparent grey pixels get darker each time an image is loaded and saved | C85_refuted |
| layer.go (Layer.At), xcf/image_encode.go (WriteImage) | an image that does not start at the origin is drawn from the origin but saved from its corner: the picture looks different after loading | C86_origin_refuted |
| xcf/decoder.go (the lowest layer becomes Normal) | a transparent picture (one Multiply layer) becomes visible by saving and loading | C86_refuted |
| image.go (Image.At), xcf/image.go (AlphaPalette) | indexed pictures are drawn opaque before saving and translucent after loading | C86_indexed_refuted |
| indexedalpha.go (PalettedAlpha.Opaque), ora/encode.go (writeLayers) | the alpha of translucent indexed images is dropped in OpenRaster files, because `Opaque` says the opposite (C23) | C87_refuted |
| ora/stack.go (processLayerAttrs loses the opacity) | a fully transparent layer covers the picture after saving and loading as ORA | C88_opacity_refuted |
| composite.go (Dissolve, Saturation, Color, Value, Luminosity) | layers of opacity zero in these modes change the picture | C104_refuted |
| composite.go:336 | a Color layer takes the lightness of fully transparent pixels, so that a clear layer below it matters | C104_color_refuted |
| composite.go:171-176 | an opaque white Multiply layer turns red into white; the order of Multiply layers matters | C105_neutral_refuted, C105_symmetric_refuted |
| image.go:15-21, :49 (palette of the first layer) | whether a translucent pixel is shown depends on which of the layers beside it is first | C102_palette_refuted |
| ora/stack.go:96 (LayerBounds cut at the canvas) | a layer that starts left of or above the canvas loses its right and bottom pixels instead of the left and top ones | C100_cut_refuted |
| ora/stack.go:96 (bounds of stacks) | layers in stacks of files of other programs are moved twice as far as the file says | C100_group_refuted |
| layer.go (Layer.At), ora/encode.go (writeLayers) | an image that does not start at the origin looks different after saving and loading as ORA | C88_origin_refuted |
| xcf/layer_decode.go (ReadLayer) | modes of layers in grey files are lost: Multiply is read as Normal | C89_modes_refuted |
| xcf/layer_decode.go, xcf/decoder.go | a layer that begins left of the canvas is read with its pixels moved | C89_outside_refuted |
| xcf/image_decode.go (readAndDecompressImage) | uncompressed pixels are taken channel after channel; the format (devel-docs/xcf.txt of GIMP) has them pixel after pixel, so colours are mixed up | C90_refuted |
| ora/thumbnail.go | shows the wrong pixels; long images cannot be stored | C67_refuted, C80_refuted |

## Wrong programs

`seeded/LOG.jsonl` has one line per experiment: the definition edited, the edit, the claim it breaks,
and the theorems that no longer check.  Where the first theorem that fails is a lemma in
`Verif/Proofs`, everything that imports it is not built; the field `property` names the claim that is
false of the edited model.  Edits marked "(a repair)" make the code right; there it is the refutation
that has to fail.

What the log shows is limited.  "killed" means that the compiler reported an error in the theorems
listed; a proof can break because a step no longer fits while its statement is still true.  That the
edited model makes the claim false was judged by reading, except in s12-001 to s12-011, where the
negation of the claim was proved for each edited definition (the note of each line says so).
A "survived" line without tightened theorems is an edit that its note explains as allowed behaviour.
"false at an instance": the edited definition was not built into the project; the two sides of the
statement were evaluated with it and differ.
Lines with the result "invalid edit" or "only an example failed" show nothing about the theorems; they
were done again under the name in their note.

## Axioms

<!-- axioms -->

propext, Classical.choice, Quot.sound:
C01_opaque_top, C01_transparent_top, C02_alpha_union, C02_alpha_bounds, C03_between, C04_never_panics, C05_keeps_alpha, C05_transparent_top, C06_red_local_partial, C06_grey_bottom_partial, C07_formula, C08_burn_refuted, C08_burn_partial, C08_black_top, C08_underflow_is_white, C09_hardlight_partial, C10_monotone_partial, C10_formula, C11_porter_duff_refuted, C14_alpha, C15_hsv_roundtrip, C16_raised_partial, C17_premultiplied, C19_nearest, C19_member, C19_convert, C21_raster_is_map, C21_last_write, C21_paletted_at_total, C22_subimage_shows, C22_write_shared, C22_subimage_same_origin, C23_gray_sound, C23_gray_whole, C23_paletted_inverted, C24_contains, C24_smallest, C24_order, C26_top_opaque, C26_painted_in_order, C27_move_image, C28_subimage_refuted, C28_shift, C28_subimage_partial, C28_bounds, C29_reader_decodes, C29_writer_encodes, C29_round_trip, C29_channels, C30_size, C30_bounds, C31_total, C31_fills_buffer_partial, C31_refuted, C31_accepts_iff, C32_same_pixels, C33_single_channel_partial, C34_once, C34_contents, C35_errors, C36_layout, C36_pointer_value, C37_tree_partial, C37_refuted, C38_pixels_partial, C38_refuted, C38_near_partial, C39_refuted, C39_bottom_refuted, C39_modes_partial, C40_refuted, C40_wrapped_partial, C41_offset_refuted, C41_compressed_refuted, C41_origin_partial, C42_gray_refuted, C42_indexed_refuted, C43_decode_partial, C43_encoded, C43_model_refuted, C44_long_name, C44_refuted, C44_small_partial, C45_rejected, C45_accepted, C46_config, C46_terminates_partial, C46_images, C46_text_refuted, C46_clean_partial, C47_returns_partial, C47_text_refuted, C49_property_partial, C49_list_partial, C50_order, C51_result, C51_returns, C51_sequential, C52_accepted, C52_read, C52_rejected, C52_refuted, C53_at_partial, C53_file_partial, C54_text_partial, C54_refuted, C54_data_refuted, C54_empty_refuted, C55_exact, C55_refuted, C55_single_partial, C56_nested_partial, C56_markup_partial, C56_order, C56_refuted, C58_refuted, C58_all_return_partial, C59_entries, C59_layout, C60_refuted, C60_partial, C61_back, C61_refuted, C61_partial, C62_modes_partial, C62_refuted, C63_refuted, C63_partial, C64_returns, C64_foreign, C65_outside, C65_canvas, C66_mime, C66_missing, C66_only, C67_size_partial, C67_refuted, C68_grain_merge_refuted, C68_grain_merge_partial, C70_components, C70_value_is_brightest, C70_brightness, C72_faithful, C73_indexed, C74_encode_total, C74_encode_succeeds, C75_parse, C76_panic_exact, C76_reads_partial, C76_steps, C76_hang_refuted, C76_panic_refuted, C77_runs, C77_unique, C77_broken, C77_layer, C79_refuted, C79_partial, C80_exact, C80_places_partial, C80_refuted, C80_partial, C81_topmost, C81_all_or_nothing, C83_same_tile_partial, C83_refuted, C84_refuted, C84_pair_partial, C84_stack_partial, C84_stack_refuted, C84_own, C85_partial, C85_refuted, C86_looks_partial, C86_refuted, C86_origin_refuted, C86_indexed_refuted, C87_pixels_partial, C87_refuted, C88_looks_partial, C88_opacity_refuted, C88_origin_refuted, C89_partial, C89_modes_refuted, C89_outside_refuted, C89_group_refuted, C90_partial, C91_accepted, C92_style_partial, C92_refuted, C92_size_refuted, C93_lowest_partial, C93_whole, C94_accepted, C94_encoded, C94_position_refuted, C95_size, C95_merged_partial, C95_grey_refuted, C96_draws, C96_steady, C97_picture, C98_paths, C98_state, C98_vectors_refuted, C98_vectors_partial, C99_decoded, C99_written, C100_layers_partial, C100_picture_partial, C100_cut_refuted, C100_group_refuted, C101_moved, C101_bounds, C102_exchanged_partial, C102_first, C103_pair, C103_stack, C103_picture, C104_pixel_partial, C104_layer_partial, C105_neutral_partial, C105_symmetric_partial, C105_self, C106_size, C107_differ_partial, C108_picture, C108_grouped, C109_stored_partial, C109_refuted, C110_stored_partial, C110_refuted, C111_bound, C112_again_partial, C112_refuted, C113_inside, C114_raster_partial, C115_either_partial, C117_raster, C117_layers, C117_order, C118_convert_partial, C118_refuted, C119_colours, C120_convert_partial, C120_refuted, C121_needed, C122_layer_partial, C122_small, C122_columns_refuted, C123_whole, C123_layer, C123_previews, C123_after, C124_labels, C124_resave_partial, C124_refuted, C125_written, C125_colour_partial, C125_refuted, C126_partial, C127_ignored, C127_layers, C128_errors, C128_size_partial, C128_refuted, C128_model_refuted, C128_negative_refuted, C129_grows, C129_only, C129_opacity, C130_grey, C130_file, C131_channels_partial, C131_red_partial, C132_inside_partial, C132_refuted, C133_raster_partial, C133_cropped_refuted, C134_documented_partial, C134_modes_refuted, C135_documented_partial, C135_refuted, C136_read, C136_same, C136_printable, C137_reads, C138_lightens_partial, C138_darkens_partial, C138_stack_lightens_partial, C138_stack_darkens_partial, C139_cut_partial, C139_group_refuted, C140_best, C140_runs, C140_file, C140_single, C141_order, C141_opaque, C141_even, C142_opaque, C142_any, C142_difference, C142_hardlight_partial, C142_burn_partial, C142_picture, C143_head, C143_encoded, C144_saved_partial, C144_loaded_partial, C144_refuted, C144_flat_partial, C144_grey_partial, C144_indexed_partial, C145_pair_partial, C145_picture_partial, C146_pair_partial, C146_fades_partial, C146_picture_partial, C147_red_partial, C147_refuted, C149_flatten, C149_exists, C149_exchange, C150_hsv, C150_hsl, C150_same, C150_tint, C151_painted, C152_saturation, C152_value, C152_hue, C153_color_partial, C153_luminosity_partial, C153_grey, C153_refuted, C154_decode, C154_faultless, C155_config, C155_terminates, C155_returns, C155_clean, C156_merged, C156_order_partial, C156_rounded_partial, C157_layer, C157_config, C157_head, C158_shape, C158_origin, C159_calls, C159_file, C159_bound, C160_picture_partial, C161_mirrored, C161_transposed, C161_enlarged, C162_lowest_partial, C162_indexed_partial, C162_normal_partial, C163_pieces_partial, C163_cut_partial, C163_plain_partial, C163_refuted, C164_spread_partial, C164_refuted, C165_larger_partial, C165_refuted, C166_masked, C166_seen_partial, C166_color_partial, C167_colours_partial, C167_apart_partial, C168_opaque_partial, C168_refuted, C168_file, C169_canvas.

propext, Quot.sound:
C01_both_transparent, C05_transparent_bottom, C06_green_local_refuted, C09_hardlight_refuted, C10_fixes_refuted, C10_white_refuted, C11_as_normal_partial, C12_undefined_is_normal, C12_string_total, C12_names, C13_one_of_inputs, C13_follows_top_refuted, C13_follows_bottom_partial, C14_hue_grey, C15_brightest, C16_grey_partial, C17_agrees, C18_rgb_idempotent, C18_gray_refuted, C18_gray_partial, C20_opacity, C20_monotone, C21_paletted_index_outside, C23_rgb, C23_gray_subimage_refuted, C23_paletted_refuted, C25_irrelevant_layer, C25_irrelevant_first, C25_nothing_shows, C25_nested, C27_layer_pixel, C27_total, C27_move, C32_outside_differs, C42_alpha_partial, C43_refuted, C46_refuted, C46_loops, C46_forever, C47_refuted, C47_compressed_refuted, C48_extends, C48_truncated, C48_short_read, C48_no_error, C48_sticky, C49_refuted, C49_unknown, C53_refuted, C57_reads_partial, C57_exclusive, C57_refuted, C58_goes_on_partial, C69_mask, C69_total, C71_behind, C72_widen, C73_rgb, C73_rgb_exact, C73_gray, C73_gray_exact, C73_gray_of_grey, C76_loop, C78_short_partial, C82_pixels, C82_encode, C90_refuted, C93_refuted, C93_mixed_refuted, C94_partial, C94_others, C94_reader_refuted, C97_transparency, C99_back, C102_palette_refuted, C104_refuted, C104_color_refuted, C105_neutral_refuted, C105_symmetric_refuted, C106_single, C107_refuted, C111_not_total, C114_cropped_refuted, C115_refuted, C116_mid_partial, C116_mid_refuted, C126_refuted, C126_color_refuted, C131_refuted, C137_list, C138_lightens_refuted, C138_darkens_refuted, C138_by_one_refuted, C141_several, C141_hidden, C141_sharp, C142_refuted, C143_longer, C145_refuted, C146_refuted, C148_names, C151_point, C154_config, C155_sizes_needed, C156_refuted, C157_layers, C160_odds_partial, C160_refuted, C162_refuted, C164_modes_refuted, C165_modes_refuted, C166_modes_refuted, C166_color_refuted, C166_refuted, C167_refuted.

propext:
C16_hsl_refuted, C33_refuted, C57_sources, C58_step_left, C99_runs, C116_min, C116_max.

none:
C78_refuted, C136_count.
