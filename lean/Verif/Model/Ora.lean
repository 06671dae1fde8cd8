import Verif.Model.Image
import Verif.Model.Text
/-!
# OpenRaster: package ora

Library code that is not modelled but given as a parameter (`OraEnv`): `encoding/xml` (bytes to and from tokens),
`image/png` and `image.Decode` (images to and from bytes), `strconv.ParseFloat` and `FormatFloat` for opacities, and
the rounding of one `float64` division.  `archive/zip` is modelled by the list of entries with what can be read from
them.  Pointers to `limage.Layer` and `limage.Image` are not distinguished from values, as in the code
(encode.go:77, :131, :260).  Go `int` is unbounded, except for the range check of `strconv.Atoi`.
-/
namespace Limage

/-- ora/decode.go:184-188, ora/stack.go:205-207, and errors of other packages -/
inductive OraErr where
  | missingStack
  | invalidMimeType
  | invalidStack
  | invalidSource
  | unexpectedEOF
  /-- `io.EOF` -/
  | eof
  /-- any other error of the XML decoder -/
  | xml
  /-- an error of `strconv` -/
  | number
  /-- an entry that cannot be opened -/
  | opening
  /-- an error of `image.Decode` -/
  | image
  /-- the error of `png.Encode` for images that are empty or too large -/
  | size
  /-- an error of the writer -/
  | write
deriving DecidableEq, Repr

/-- result of a function that can return an error, panic or loop forever -/
inductive OraRes (α : Type) where
  | ok (a : α)
  | err (e : OraErr)
  | panic
  | hang

/-- continue with the result, if there is one -/
def OraRes.bind {α β : Type} (x : OraRes α) (f : α → OraRes β) : OraRes β :=
  match x with
  | .ok a => f a
  | .err e => .err e
  | .panic => .panic
  | .hang => .hang

instance : Monad OraRes where
  pure := .ok
  bind := OraRes.bind

/-- an entry of an archive: its name, its size as given in the directory, and what can be read from it (`none`: it cannot be opened) -/
structure ZipEntry where
  name : Bytes
  size : Nat
  data : Option Bytes
deriving DecidableEq

/-- what can be given to `Encode`: an image, or a layer (which is an image as well) -/
inductive OraInput where
  | image (i : Img)
  | layer (l : Layer)

/-- what is given to `png.Encode`: an image, or the thumbnail of one (thumbnail.go:8-11) with scale `side / 256` -/
inductive Pic where
  | full (m : OraInput)
  | thumb (m : OraInput) (side : Int)

/-- library functions -/
structure OraEnv where
  /-- the tokens in a document, and whether they end with `io.EOF` -/
  xmlRead : Bytes → List XmlTok × Bool
  /-- a document with the given tokens, and a header and white space between them (encode.go:38-44) -/
  xmlWrite : List XmlTok → Bytes
  /-- `image.Decode`; `none` = error -/
  decodeImage : Bytes → Option Leaf
  /-- `png.Encode` to a writer that does not fail; `none` = error -/
  png : Pic → OraRes Bytes
  /-- `uint8(255 * (1 - o))` for the result `o` of `strconv.ParseFloat`; `none` = error -/
  opacity : Bytes → Option UInt8
  /-- `strconv.FormatFloat(float64(255-t)/255, 'f', -1, 64)` -/
  formatOpacity : UInt8 → Bytes
  /-- `float64(x) / (float64(side) / 256)` -/
  quotient : Int → Int → Rat

/-! ### Decoding -/

/-- encode.go:14 -/
def oraMime : Bytes := lit "image/openraster"

/-- decode.go:39-60 `checkMime` -/
def checkMime (f : ZipEntry) : Bool :=
  f.size = oraMime.length &&
  match f.data with
  | none => false
  | some d => oraMime.length ≤ d.length && d.take oraMime.length = oraMime

/-- decode.go:21-37 `getStack` -/
def getStack (stack : Option ZipEntry) : List ZipEntry → OraRes ZipEntry
  | [] =>
    match stack with
    | some f => .ok f
    | none => .err .missingStack
  | f :: fs =>
    if f.name = lit "stack.xml" then getStack (some f) fs
    else if f.name = lit "mimetype" then
      if checkMime f then getStack stack fs else .err .invalidMimeType
    else getStack stack fs

/-- `strconv.Atoi`; `none` = error -/
def atoi (s : Bytes) : Option Int :=
  let number (d : Bytes) : Option Nat :=
    if d ≠ [] ∧ d.all isDigit then some (d.foldl (fun n b => 10 * n + (b.toNat - 48)) 0) else none
  match s with
  | 45 :: d => (number d).bind fun n => if n ≤ 2 ^ 63 then some (-(n : Int)) else none
  | 43 :: d => (number d).bind fun n => if n < 2 ^ 63 then some (n : Int) else none
  | d => (number d).bind fun n => if n < 2 ^ 63 then some (n : Int) else none

/-- decode.go:75-96: the attributes of the image element -/
def imageAttrs : List (Bytes × Bytes) → Option Int → Option Int → OraRes Pt
  | [], some w, some h => .ok ⟨w, h⟩
  | [], _, _ => .err .invalidStack
  | (name, value) :: rest, w, h =>
    if name = lit "w" then
      match atoi value with
      | none => .err .number
      | some n => imageAttrs rest (some n) h
    else if name = lit "h" then
      match atoi value with
      | none => .err .number
      | some n => imageAttrs rest w (some n)
    else imageAttrs rest w h

/-- decode.go:62-102 `getDimensions`: the canvas and the tokens left -/
def getDimensions (eof : Bool) : List XmlTok → OraRes (Pt × List XmlTok)
  | [] => .err (if eof then .invalidStack else .xml)
  | .start name attrs :: ts =>
    if name = lit "image" then do
      let limits ← imageAttrs attrs none none
      return (limits, ts)
    else .err .invalidStack
  | _ :: ts => getDimensions eof ts

/-- what `Token` returns at the end -/
def endErr (eof : Bool) : OraErr := if eof then .eof else .xml

/-- stack.go:182-202 `skipTag`, with the number of tags to skip: the tokens left -/
def skipTag (eof : Bool) : List XmlTok → Nat → OraRes (List XmlTok)
  | [], _ => .err (endErr eof)
  | .start _ _ :: ts, n => skipTag eof ts (n + 1)
  | .stop :: ts, 0 => .ok ts
  | .stop :: ts, n + 1 => skipTag eof ts n
  | _ :: ts, n => skipTag eof ts n

/-- stack.go:132-173 -/
def modeOfOp (old : Mode) (v : Bytes) : Mode :=
  if v = lit "svg:src-over" then Mode.normal
  else if v = lit "svg:multiply" then Mode.multiply
  else if v = lit "svg:screen" then Mode.screen
  else if v = lit "svg:overlay" then Mode.overlay
  else if v = lit "svg:darken" then Mode.darkenOnly
  else if v = lit "svg:lighten" then Mode.lightenOnly
  else if v = lit "svg:color-dodge" then Mode.dodge
  else if v = lit "svg:color-burn" then Mode.burn
  else if v = lit "svg:hard-light" then Mode.hardLight
  else if v = lit "svg:soft-light" then Mode.softLight
  else if v = lit "svg:difference" then Mode.difference
  else if v = lit "svg:color" then Mode.color
  else if v = lit "svg:luminosity" then Mode.luminosity
  else if v = lit "svg:hue" then Mode.hue
  else if v = lit "svg:saturation" then Mode.saturation
  else if v = lit "svg:plus" then Mode.plus
  else if v = lit "svg:dst-in" then Mode.destinationIn
  else if v = lit "svg:dst-out" then Mode.destinationOut
  else if v = lit "svg:src-atop" then Mode.sourceAtop
  else if v = lit "svg:dst-atop" then Mode.destinationAtop
  else old

/-- what the attributes say: the layer without its image and the source -/
structure LayerAttrs where
  name : Bytes := []
  pos : Pt := ⟨0, 0⟩
  mode : Mode := Mode.normal
  invisible : Bool := false
  transparency : UInt8 := 0
  source : Bytes := []
deriving DecidableEq

/-- stack.go:105-176, one attribute -/
def layerAttr (env : OraEnv) (l : LayerAttrs) (a : Bytes × Bytes) : OraRes LayerAttrs :=
  if a.1 = lit "name" then .ok { l with name := a.2 }
  else if a.1 = lit "x" then
    match atoi a.2 with
    | none => .err .number
    | some x => .ok { l with pos := ⟨x, l.pos.y⟩ }
  else if a.1 = lit "y" then
    match atoi a.2 with
    | none => .err .number
    | some y => .ok { l with pos := ⟨l.pos.x, y⟩ }
  else if a.1 = lit "opacity" then
    match env.opacity a.2 with
    | none => .err .number
    | some t => .ok { l with transparency := t }
  else if a.1 = lit "visibility" then .ok { l with invisible := a.2 = lit "hidden" }
  else if a.1 = lit "composite-op" then .ok { l with mode := modeOfOp l.mode a.2 }
  else if a.1 = lit "src" then .ok { l with source := a.2 }
  else .ok l

/-- stack.go:101-180 `processLayerAttrs` -/
def processLayerAttrs (env : OraEnv) : LayerAttrs → List (Bytes × Bytes) → OraRes LayerAttrs
  | l, [] => .ok l
  | l, a :: rest => do
    let l ← layerAttr env l a
    processLayerAttrs env l rest

/-- stack.go:69-89: the image of a layer -/
def layerSource (env : OraEnv) (source : Bytes) : List ZipEntry → OraRes Leaf
  | [] => .err .invalidSource
  | f :: fs =>
    if f.name = source then
      match f.data with
      | none => .err .opening
      | some d =>
        match env.decodeImage d with
        | none => .err .image
        | some i => .ok i
    else layerSource env source fs

/-- stack.go:96: the bounds of a layer, from those of its image -/
def oraBounds (limits offset pos : Pt) (b : Rect) : Rect :=
  ((b.add pos).inter ⟨0, 0, limits.x + offset.x, limits.y + offset.y⟩).sub offset

/-- stack.go:12-99 `readStack` and `readLayer`: the layers, after those already read, and the tokens left -/
def readStack (env : OraEnv) (files : List ZipEntry) (limits : Pt) (eof : Bool) :
    Nat → Pt → List XmlTok → List Layer → OraRes (List Layer × List XmlTok)
  | 0, _, _, _ => .hang
  | _ + 1, _, [], _ => .err (endErr eof)
  | fuel + 1, offset, .start name attrs :: ts, acc =>
    if name = lit "stack" then do
      let l ← processLayerAttrs env {} attrs
      let (g, ts) ← readStack env files limits eof fuel ⟨offset.x + l.pos.x, offset.y + l.pos.y⟩ ts []
      readStack env files limits eof fuel offset ts
        (acc ++ [⟨l.name, oraBounds limits offset l.pos (groupBounds g), l.mode, l.invisible, l.transparency, .group g⟩])
    else if name = lit "layer" then do
      let l ← processLayerAttrs env {} attrs
      let i ← layerSource env l.source files
      let ts ← skipTag eof ts 0
      readStack env files limits eof fuel offset ts
        (acc ++ [⟨l.name, oraBounds limits offset l.pos i.bounds, l.mode, l.invisible, l.transparency, .leaf i⟩])
    else do
      let ts ← skipTag eof ts 0
      readStack env files limits eof fuel offset ts acc
  | _ + 1, _, .stop :: ts, acc => .ok (acc, ts)
  | fuel + 1, offset, _ :: ts, acc => readStack env files limits eof fuel offset ts acc

/-- decode.go:159-178: the tokens after the first start of a stack -/
def firstStack (eof : Bool) : Nat → List XmlTok → OraRes (List XmlTok)
  | 0, _ => .hang
  | _ + 1, [] => .err (if eof then .unexpectedEOF else .xml)
  | fuel + 1, .start name _ :: ts =>
    if name = lit "stack" then .ok ts
    else do
      let ts ← skipTag eof ts 0
      firstStack eof fuel ts
  | fuel + 1, _ :: ts => firstStack eof fuel ts

/-- decode.go:110-124, :141-157: the start of both functions: the canvas, the tokens left and whether they end with `io.EOF` -/
def oraStart (env : OraEnv) (files : List ZipEntry) : OraRes (Pt × List XmlTok × Bool) := do
  let f ← getStack none files
  match f.data with
  | none => .err .opening
  | some d =>
    let (ts, eof) := env.xmlRead d
    let (limits, ts) ← getDimensions eof ts
    return (limits, ts, eof)

/-- decode.go:107-133 `DecodeConfig`: width and height; the colour model is always `color.NRGBAModel` -/
def oraDecodeConfig (env : OraEnv) (files : List ZipEntry) : OraRes (Int × Int) := do
  let (limits, _, _) ← oraStart env files
  return (limits.x, limits.y)

/-- decode.go:138-181 `Decode` -/
def oraDecode (env : OraEnv) (files : List ZipEntry) : OraRes (List Layer) := do
  let (limits, ts, eof) ← oraStart env files
  let ts ← firstStack eof (ts.length + 1) ts
  let (g, _) ← readStack env files limits eof (ts.length + 1) ⟨0, 0⟩ ts []
  return g

/-! ### Encoding -/

/-- `encoding/xml`'s `isInCharacterRange` -/
def xmlChar (c : Nat) : Bool := c = 9 || c = 10 || c = 13 || (32 ≤ c && c ≤ 0xd7ff) || (0xe000 ≤ c && c ≤ 0xfffd) || (0x10000 ≤ c && c ≤ 0x10ffff)

/-- What is read back of an attribute: `encoding/xml` escapes what has a meaning in XML, and writes U+FFFD for what is not UTF-8 or not allowed. -/
def xmlClean : Nat → Bytes → Bytes
  | 0, _ => []
  | _ + 1, [] => []
  | f + 1, b :: s =>
    match decodeRune (b :: s) with
    | some (w, c) => (if xmlChar c then (b :: s).take w else [0xef, 0xbf, 0xbd]) ++ xmlClean f ((b :: s).drop w)
    | none => [0xef, 0xbf, 0xbd] ++ xmlClean f s

/-- what is read back of an attribute -/
def xmlBack (s : Bytes) : Bytes := xmlClean s.length s

/-- `strconv.Itoa` -/
def itoa (n : Int) : Bytes :=
  let d := decDigits (n.natAbs.log2 + 1) n.natAbs
  if n < 0 then 45 :: d else d

/-- encode.go:137, :267 -/
def dataName (n : Nat) : Bytes := lit "data/" ++ itoa n ++ lit ".png"

/-- encode.go:203-246; `none` = the empty string -/
def opOfMode (m : Mode) : Option Bytes :=
  if m = Mode.multiply then some (lit "svg:multiply")
  else if m = Mode.screen then some (lit "svg:screen")
  else if m = Mode.overlay then some (lit "svg:overlay")
  else if m = Mode.darkenOnly then some (lit "svg:darken")
  else if m = Mode.lightenOnly then some (lit "svg:lighten")
  else if m = Mode.dodge then some (lit "svg:color-dodge")
  else if m = Mode.burn then some (lit "svg:color-burn")
  else if m = Mode.hardLight then some (lit "svg:hard-light")
  else if m = Mode.softLight then some (lit "svg:soft-light")
  else if m = Mode.difference then some (lit "svg:difference")
  else if m = Mode.color then some (lit "svg:color")
  else if m = Mode.luminosity then some (lit "svg:luminosity")
  else if m = Mode.hue then some (lit "svg:hue")
  else if m = Mode.saturation then some (lit "svg:saturation")
  else if m = Mode.plus then some (lit "svg:plus")
  else if m = Mode.destinationIn then some (lit "svg:dst-in")
  else if m = Mode.destinationOut then some (lit "svg:dst-out")
  else if m = Mode.sourceAtop then some (lit "svg:src-atop")
  else if m = Mode.destinationAtop then some (lit "svg:dst-atop")
  else none

/-- encode.go:165-253: the attributes of an element, without the source -/
def stackAttrs (env : OraEnv) (name : GoString) (b : Rect) (mode : Mode) (invisible : Bool) (tr : UInt8) : List (Bytes × Bytes) :=
  (if name ≠ [] then [(lit "name", name)] else []) ++
  (if b.x0 > 0 then [(lit "x", itoa b.x0)] else []) ++
  (if b.y0 > 0 then [(lit "y", itoa b.y0)] else []) ++
  (if invisible then [(lit "visibility", lit "hidden")] else []) ++
  (if tr ≠ 0 then [(lit "visibility", env.formatOpacity tr)] else []) ++
  (match opOfMode mode with
  | some op => [(lit "composite-op", op)]
  | none => [])

mutual
/-- encode.go:164-281 `writeStack`, given the attributes: the tokens written and the number of the last layer -/
def writeStack (env : OraEnv) (attrs : List (Bytes × Bytes)) (i : Img) (n : Nat) : List XmlTok × Nat :=
  match i with
  | .group g =>
    let (ts, n) := writeGroupStack env g n
    (.start (lit "stack") attrs :: ts ++ [.stop], n)
  | _ => ([.start (lit "layer") (attrs ++ [(lit "src", dataName (n + 1))]), .stop], n + 1)
termination_by structural i

/-- encode.go:292-297, the loop of `writeGroupStack` -/
def writeGroupStack (env : OraEnv) (g : List Layer) (n : Nat) : List XmlTok × Nat :=
  match g with
  | [] => ([], n)
  | ⟨name, b, mode, invisible, tr, im⟩ :: rest =>
    let (ts, n) := writeStack env (stackAttrs env name b mode invisible tr) im n
    let (us, n) := writeGroupStack env rest n
    (ts ++ us, n)
termination_by structural g
end

/-- an entry of an archive that has been written -/
def ZipEntry.of (name d : Bytes) : ZipEntry := ⟨name, d.length, some d⟩

/-- `zw.Create(name)` and `png.Encode`; `fails`: the writer reports an error -/
def writePng (env : OraEnv) (fails : Bool) (name : Bytes) (p : Pic) : OraRes ZipEntry :=
  if fails then .err .write else (env.png p).bind fun d => .ok (.of name d)

/-- encode.go:134-145: a layer that is not a group -/
def writeOne (env : OraEnv) (fails : Nat → Bool) (i : Img) (n : Nat) : OraRes (List ZipEntry × Nat) :=
  (writePng env (fails (n + 1)) (dataName (n + 1)) (.full (.image i))).bind fun e => .ok ([e], n + 1)

mutual
/-- encode.go:122-149 `writeLayers`: the entries and the number of the last layer; `fails`: the entries for which the writer reports an error -/
def oraLayers (env : OraEnv) (fails : Nat → Bool) (i : Img) (n : Nat) : OraRes (List ZipEntry × Nat) :=
  match i with
  | .group g => writeGroup env fails g n
  | .leaf l => writeOne env fails (.leaf l) n
  | .nil => writeOne env fails .nil n
  | .text i t => writeOne env fails (.text i t) n
  | .masked i m => writeOne env fails (.masked i m) n
termination_by structural i

/-- encode.go:151-162 `writeGroup` -/
def writeGroup (env : OraEnv) (fails : Nat → Bool) (g : List Layer) (n : Nat) : OraRes (List ZipEntry × Nat) :=
  match g with
  | [] => .ok ([], n)
  | ⟨_, _, _, _, _, im⟩ :: rest =>
    (oraLayers env fails im n).bind fun r => (writeGroup env fails rest r.2).bind fun s => .ok (r.1 ++ s.1, s.2)
termination_by structural g
end

/-- encode.go:71-86 `toLayer`: the image of the new layer -/
def OraInput.top : OraInput → Img
  | .image i => i
  | .layer l => l.image

/-- `m.Bounds()` (layer.go:19-21 for a layer); `none` = panic -/
def OraInput.bounds : OraInput → Option Rect
  | .image i => i.bounds
  | .layer l => some l.bounds

/-- encode.go:107-117: what the thumbnail is made of -/
def thumbPic (m : OraInput) (w h : Int) : Pic :=
  if w > 256 ∨ h > 256 then .thumb m (if w > h then w else h) else .full m

/-- encode.go:42-69, :91-100: the tokens of stack.xml; the layer made by `toLayer` has no attributes -/
def stackTokens (env : OraEnv) (m : OraInput) (w h : Int) : List XmlTok :=
  .start (lit "image") [(lit "version", lit "0.0.3"), (lit "w", itoa w), (lit "h", itoa h)] :: (writeStack env [] m.top 0).1 ++ [.stop]

/-- Result of `Encode`: the error, and the archive that was written; `none`: without a directory. -/
structure OraResult where
  err : Option OraErr
  file : Option (List ZipEntry)

/-- encode.go:26-120, without `zw.Close`: the entries -/
def oraEntries (env : OraEnv) (fails : Nat → Bool) (m : OraInput) : OraRes (List ZipEntry) :=
  match m.bounds with
  | none => .panic
  | some b =>
    if fails 0 then .err .write
    else (oraLayers env fails m.top 0).bind fun r =>
      if fails (r.2 + 1) then .err .write
      else (writePng env (fails (r.2 + 2)) (lit "mergedimage.png") (.full m)).bind fun merged =>
        (writePng env (fails (r.2 + 3)) (lit "Thumbnails/thumbnail.png") (thumbPic m b.dx b.dy)).bind fun thumb =>
          .ok (.of (lit "mimetype") oraMime :: r.1 ++ [.of (lit "stack.xml") (env.xmlWrite (stackTokens env m b.dx b.dy)), merged, thumb])

/-- encode.go:17-69 `Encode`; `closeFails`: whether `zw.Close` (:24, its error is dropped) fails.  After another error
the archive is not described here; `oraLeft` is what is in it then. -/
def oraEncode (env : OraEnv) (fails : Nat → Bool) (closeFails : Bool) (m : OraInput) : OraRes OraResult :=
  match oraEntries env fails m with
  | .ok es => .ok ⟨none, if closeFails then none else some es⟩
  | .err e => .ok ⟨some e, none⟩
  | .panic => .panic
  | .hang => .hang

/-! ### What is left after an error

`zw.Close` is deferred (encode.go:24), so that the archive gets its directory also after an error of `png.Encode`.  The
writer below does not fail.  `junk`: what `png.Encode` had written of the entry it returned an error for (nothing, if the
image is empty or too large). -/

/-- encode.go:134-145: the entry of a layer that is not a group, and its number unless there is an error -/
def leftOne (env : OraEnv) (junk : Bytes) (i : Img) (n : Nat) : List ZipEntry × Option Nat :=
  match env.png (.full (.image i)) with
  | .ok d => ([.of (dataName (n + 1)) d], some (n + 1))
  | _ => ([.of (dataName (n + 1)) junk], none)

mutual
/-- encode.go:122-149 `writeLayers`: the entries in the archive, and the number of the last layer unless there is an error -/
def leftLayers (env : OraEnv) (junk : Bytes) (i : Img) (n : Nat) : List ZipEntry × Option Nat :=
  match i with
  | .group g => leftGroup env junk g n
  | .leaf l => leftOne env junk (.leaf l) n
  | .nil => leftOne env junk .nil n
  | .text i t => leftOne env junk (.text i t) n
  | .masked i m => leftOne env junk (.masked i m) n
termination_by structural i

/-- encode.go:151-162 `writeGroup` -/
def leftGroup (env : OraEnv) (junk : Bytes) (g : List Layer) (n : Nat) : List ZipEntry × Option Nat :=
  match g with
  | [] => ([], some n)
  | ⟨_, _, _, _, _, im⟩ :: rest =>
    match leftLayers env junk im n with
    | (es, none) => (es, none)
    | (es, some k) => (es ++ (leftGroup env junk rest k).1, (leftGroup env junk rest k).2)
termination_by structural g
end

/-- encode.go:97-119: the entries of the previews -/
def leftPreviews (env : OraEnv) (junk : Bytes) (m : OraInput) (b : Rect) : List ZipEntry :=
  match env.png (.full m) with
  | .ok d => [.of (lit "mergedimage.png") d, .of (lit "Thumbnails/thumbnail.png") (match env.png (thumbPic m b.dx b.dy) with | .ok d => d | _ => junk)]
  | _ => [.of (lit "mergedimage.png") junk]

/-- encode.go:17-120: the archive when `Encode` has returned; `b`: the bounds of the image -/
def oraLeft (env : OraEnv) (junk : Bytes) (m : OraInput) (b : Rect) : List ZipEntry :=
  match leftLayers env junk m.top 0 with
  | (es, none) => .of (lit "mimetype") oraMime :: es
  | (es, some _) => .of (lit "mimetype") oraMime :: es ++ .of (lit "stack.xml") (env.xmlWrite (stackTokens env m b.dx b.dy)) :: leftPreviews env junk m b

/-! ### Thumbnails -/

/-- conversion to `int`: towards zero -/
def truncRat (q : Rat) : Int := if 0 ≤ q then q.floor else q.ceil

/-- thumbnail.go:13-21 `Bounds`; `none` = panic -/
def Pic.bounds (env : OraEnv) : Pic → Option Rect
  | .full m => m.bounds
  | .thumb m side => m.bounds.map fun b =>
    ⟨truncRat (env.quotient b.x0 side), truncRat (env.quotient b.y0 side), truncRat (env.quotient b.x1 side), truncRat (env.quotient b.y1 side)⟩

/-- `At` of the argument of `Encode` -/
def OraInput.at (ρ : Nat → UInt16) (m : OraInput) (p : Pt) (n : Nat) : Option (Color × Nat) :=
  match m with
  | .image i => i.at ρ p n
  | .layer l => layerAt ρ l p n

/-- thumbnail.go:23-25 `At`: the point of the image that is shown -/
def thumbPoint (env : OraEnv) (side : Int) (p : Pt) : Pt := ⟨truncRat (env.quotient p.x side), truncRat (env.quotient p.x side)⟩

/-- `At` of what is given to `png.Encode` -/
def Pic.at (env : OraEnv) (ρ : Nat → UInt16) (q : Pic) (p : Pt) (n : Nat) : Option (Color × Nat) :=
  match q with
  | .full m => m.at ρ p n
  | .thumb m side => m.at ρ (thumbPoint env side p) n

end Limage
