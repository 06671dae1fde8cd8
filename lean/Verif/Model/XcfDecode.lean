import Verif.Model.XcfImage
/-!
# Decoding XCF files: xcf/decoder.go, xcf/layer_decode.go, xcf/channel.go, xcf/parasites.go

Simplifications.
* Loops over property lists and pointer lists carry fuel; running out of it is `hang`.  The fuel
  given by the callers is shown to be enough (C46).
* `uint8(d.ReadFloat32()*255)` (layer_decode.go:139) and the text parser are parameters (`Env`).
* The goroutines of `readLayers` have their own readers over the same contents, so what each does is
  a function of its pointer; what depends on the schedule is whose error is kept (`Sched.layers`);
  `Verif.Model.Schedule` has the interleaving model this is derived from.
* The iteration order of the map of groups is a parameter (`Sched.groups`).
* Layer coordinates (sums of 32-bit offsets) do not overflow `int`.
-/
namespace Limage

/-- What the Go runtime chooses: the order in which goroutines reach the error lock, and the order in
which a map is iterated, both given for `n` elements as a list of indices. -/
structure Sched where
  layers : Nat → List Nat
  groups : Nat → List Nat

/-- every element once -/
def Sched.Valid (s : Sched) : Prop :=
  (∀ n, (s.layers n).Perm (List.range n)) ∧ ∀ n, (s.groups n).Perm (List.range n)

/-! ### Parasites -/

/-- xcf/parasites.go:18-22 `parasite`. -/
structure Parasite where
  name : Bytes
  flags : UInt32
  data : Bytes
deriving DecidableEq, Repr

/-- xcf/parasites.go:26-34 `Get`. -/
def getParasite (ps : List Parasite) (name : Bytes) : Option Parasite := ps.find? fun p => p.name = name

/-- parasites.go:15, "gimp-text-layer" -/
def textParasiteName : Bytes := [103, 105, 109, 112, 45, 116, 101, 120, 116, 45, 108, 97, 121, 101, 114]

/-- xcf/parasites.go:36-65 `ReadParasites`; the sum of lengths is a `uint32`. -/
def readParasites : Nat → UInt32 → List Parasite → M (List Parasite)
  | 0, _, _ => M.hang
  | f + 1, l, ps =>
    if l = 0 then pure ps
    else do
      let name ← readString
      let flags ← readUint32
      let pplength ← readUint32
      let read := 4 + UInt32.ofNat name.length + 1 + 4 + 4 + pplength
      if read > l then
        setError .invalidParasites
        return []
      else
        let data ← readInto (List.replicate pplength.toNat 0)
        readParasites f (l - read) (ps ++ [⟨name, flags, data⟩])

/-- with enough fuel -/
def readParasitesAll (l : UInt32) : M (List Parasite) := fun r =>
  readParasites (l.toNat + r.data.length + 2) l [] r

/-! ### Header -/

/-- decoder.go:41 "gimp xcf " -/
def fileTypeID : Bytes := [103, 105, 109, 112, 32, 120, 99, 102, 32]

/-- decoder.go:42-55: the version strings, with the mode of lines 189-196 -/
def versions : List (Bytes × UInt32) :=
  [([102, 105, 108, 101], 0), -- "file"
   ([118, 48, 48, 49], 0), ([118, 48, 48, 50], 0), ([118, 48, 48, 51], 0),
   ([118, 48, 48, 52], 1), ([118, 48, 48, 53], 1), ([118, 48, 48, 54], 1), ([118, 48, 48, 55], 1),
   ([118, 48, 48, 56], 1), ([118, 48, 48, 57], 1), ([118, 48, 49, 48], 1),
   ([118, 48, 49, 49], 2), ([118, 48, 49, 50], 2), ([118, 48, 49, 51], 2)]

/-- xcf/decoder.go:174-204 `readHeader`. -/
def readHeader : M (Except Err UInt32) := do
  let header ← readInto (List.replicate 14 0)
  match ← getErr with
  | some e => return .error e
  | none =>
    if header.take 9 ≠ fileTypeID then return .error .invalidFileTypeID
    else
      match versions.find? fun v => v.1 = (header.drop 9).take 4 with
      | none => return .error .unsupportedVersion
      | some v =>
        if header.getD 13 0 ≠ 0 then return .error .invalidHeader
        else return .ok v.2

/-! ### Image properties -/

/-- the colour map, decoder.go:250-258 -/
def readPalette : Nat → M (List Color)
  | 0 => pure []
  | n + 1 => do
    let r ← readUint8
    let g ← readUint8
    let b ← readUint8
    let cs ← readPalette n
    return .lrgb r g b :: cs

/-- what `readImageProperties` collects -/
structure IProps where
  palette : List Color
  compression : UInt8

/-- One property of the image, decoder.go:227-300.  `error` is a direct return of that error. -/
def imageProp (baseType typ plength : UInt32) (s : IProps) : M (Except Err IProps) :=
  if typ = 9 ∨ typ = 28 ∨ typ = 8 then do -- propLinked, propLockContent, propVisible
    let _ ← readBoolProperty
    return .ok s
  else if typ = 6 then do -- propOpacity
    let o ← readUint32
    if o > 255 then return .error .invalidOpacity else return .ok s
  else if typ = 21 then do -- propParasites
    let _ ← readParasitesAll plength
    return .ok s
  else if typ = 20 then do -- propTattoo
    let _ ← readUint32
    return .ok s
  else if typ = 1 then do -- propColorMap
    skip (if baseType ≠ 2 then plength else 0)
    let n ← readUint32
    let p ← readPalette n.toNat
    return .ok { s with palette := p }
  else if typ = 17 then do -- propCompression
    let c ← readUint8
    if c > 1 then return .error .unknownCompression else return .ok { s with compression := c }
  else if typ = 18 then do -- propGuides
    if plength / 5 * 5 ≠ plength then return .error .invalidGuideLength
    else
      forN (plength / 5).toNat do
        skipUint32
        skipBoolProperty
        return true
      return .ok s
  else if typ = 23 then do -- propPaths
    skipPaths
    return .ok s
  else if typ = 19 then do -- propResolution
    skipFloat32
    skipFloat32
    return .ok s
  else if typ = 39 then do -- propSamplePoints
    if plength &&& 1 = 1 then return .error .invalidSampleLength
    else
      forN (plength >>> 1).toNat do
        skipUint32
        skipUint32
        return true
      return .ok s
  else if typ = 22 then do -- propUnit
    let u ← readUint32
    if u > 4 then return .error .invalidUnit else return .ok s
  else if typ = 24 then do -- propUserUnit
    skipFloat32
    skipUint32
    skipString
    skipString
    skipString
    skipString
    skipString
    return .ok s
  else if typ = 25 then do -- propVectors
    skipVectors
    return .ok s
  else do
    skip plength
    return .ok s

/-- xcf/decoder.go:206-305 `readImageProperties`. -/
def imageProps (baseType : UInt32) : Nat → IProps → M (Except Err IProps)
  | 0, _ => M.hang
  | f + 1, s => do
    let typ ← readUint32
    let plength ← readUint32
    if typ = 0 then -- propEnd
      if plength ≠ 0 then return .error .invalidProperties else return .ok s
    else
      match ← imageProp baseType typ plength s with
      | .error e => return .error e
      | .ok s => imageProps baseType f s

/-- with enough fuel -/
def readImageProperties (baseType : UInt32) : M (Except Err IProps) := fun r =>
  imageProps baseType (r.data.length + 2) ⟨[], 0⟩ r

/-- xcf/decoder.go:307-325 `readLayerPointers`. -/
def layerPointers (mode : UInt32) : Nat → List UInt64 → M (List UInt64)
  | 0, _ => M.hang
  | f + 1, ps => do
    let p ← readPtr mode
    if p = 0 then return ps else layerPointers mode f (ps ++ [p])

/-- with enough fuel -/
def readLayerPointers (mode : UInt32) : M (List UInt64) := fun r =>
  layerPointers mode (r.data.length + 2) [] r

/-! ### Layers -/

/-- Go's conversion of a 32-bit pattern to `int32`. -/
def toInt32 (x : UInt32) : Int := if x.toNat < 2 ^ 31 then x.toNat else x.toNat - 2 ^ 32

/-- xcf/layer_decode.go:155-232 `readMode`: mode for the number in the file. -/
def modeOf (n : UInt32) : Mode :=
  if n = 0 ∨ n = 28 then Mode.normal
  else if n = 1 then Mode.dissolve
  else if n = 2 ∨ n = 29 then Mode.behind
  else if n = 3 ∨ n = 30 then Mode.multiply
  else if n = 4 ∨ n = 31 then Mode.screen
  else if n = 5 ∨ n = 23 then Mode.overlay
  else if n = 6 ∨ n = 32 then Mode.difference
  else if n = 7 ∨ n = 33 then Mode.addition
  else if n = 8 ∨ n = 34 then Mode.subtract
  else if n = 9 ∨ n = 35 ∨ n = 54 then Mode.darkenOnly
  else if n = 10 ∨ n = 36 ∨ n = 55 then Mode.lightenOnly
  else if n = 11 ∨ n = 24 ∨ n = 37 then Mode.hue
  else if n = 12 ∨ n = 38 then Mode.saturation
  else if n = 13 ∨ n = 26 ∨ n = 39 then Mode.color
  else if n = 14 ∨ n = 40 then Mode.value
  else if n = 15 ∨ n = 41 then Mode.divide
  else if n = 16 ∨ n = 42 then Mode.dodge
  else if n = 17 ∨ n = 43 then Mode.burn
  else if n = 18 ∨ n = 44 then Mode.hardLight
  else if n = 19 ∨ n = 45 then Mode.softLight
  else if n = 20 ∨ n = 46 then Mode.grainExtract
  else if n = 21 ∨ n = 47 then Mode.grainMerge
  else if n = 22 ∨ n = 57 then Mode.colorErase
  else if n = 25 then Mode.chroma
  else if n = 27 then Mode.lightness
  else if n = 48 then Mode.vividLight
  else if n = 49 then Mode.pinLight
  else if n = 50 then Mode.linearLight
  else if n = 51 then Mode.hardMix
  else if n = 52 then Mode.exclusion
  else if n = 53 then Mode.linearBurn
  else if n = 56 then Mode.luminance
  else if n = 58 then Mode.erase
  else if n = 59 then Mode.merge
  else if n = 60 then Mode.split
  else if n = 61 then Mode.passThrough
  else 0

/-- what the properties of a layer set; `off` is the sum of the offsets -/
structure LProps where
  off : Pt
  transparency : UInt8
  invisible : Bool
  group : Bool
  itemPath : List UInt32
  mode : Mode
  parasites : List Parasite

/-- the values before the first property -/
def LProps.start : LProps := ⟨⟨0, 0⟩, 0, false, false, [], 0, []⟩

/-- `n` numbers, layer_decode.go:241-243 -/
def readUint32s : Nat → M (List UInt32)
  | 0 => pure []
  | n + 1 => do
    let x ← readUint32
    let xs ← readUint32s n
    return x :: xs

/-- xcf/layer_decode.go:234-244 `readItemPath`. -/
def readItemPath (plength : UInt32) : M (List UInt32) := do
  setErr? (if plength &&& 3 ≠ 0 then some .invalidItemPathLength else none)
  readUint32s (plength >>> 2).toNat

/-- One property of a layer, layer_decode.go:91-148. -/
def layerProp (c : Ctx) (typ plength : UInt32) (s : LProps) : M LProps :=
  if typ = 9 ∨ typ = 28 ∨ typ = 11 ∨ typ = 12 ∨ typ = 10 ∨ typ = 13 then do
    -- propLinked, propLockContent, propApplyMask, propEditMask, propLockAlpha, propShowMask
    skipBoolProperty
    return s
  else if typ = 6 then do -- propOpacity
    let o ← readUint32
    setErr? (if o > 255 then some .invalidOpacity else none)
    return { s with transparency := 255 - o.toUInt8 }
  else if typ = 21 then do -- propParasites
    let ps ← readParasitesAll plength
    return { s with parasites := ps }
  else if typ = 20 ∨ typ = 5 ∨ typ = 31 ∨ typ = 26 then do
    -- propTattoo, propFloatingSelection, propGroupItemFlags, propTextLayerFlags
    skipUint32
    return s
  else if typ = 8 then do -- propVisible
    let v ← readBoolProperty
    return { s with invisible := !v }
  else if typ = 2 then return s -- propActiveLayer
  else if typ = 29 then return { s with group := true } -- propGroupItem
  else if typ = 30 then do -- propItemPath
    let p ← readItemPath plength
    return { s with itemPath := p }
  else if typ = 7 then do -- propMode
    let m ← readUint32
    return { s with mode := if c.baseType ≠ 0 then (if m = 2 then Mode.behind else Mode.normal) else modeOf m }
  else if typ = 15 then do -- propOffsets
    let x ← readUint32
    let y ← readUint32
    return { s with off := ⟨s.off.x + toInt32 x, s.off.y + toInt32 y⟩ }
  else if typ = 33 then do -- propFloatOpacity
    let f ← readUint32
    return { s with transparency := 255 - c.env.floatOpacity f }
  else do
    skip plength
    return s

/-- xcf/layer_decode.go:75-153 `readProperties`. -/
def layerProps (c : Ctx) : Nat → LProps → M LProps
  | 0, _ => M.hang
  | f + 1, s => do
    let typ ← readUint32
    let plength ← readUint32
    if typ = 0 then do
      setErr? (if plength ≠ 0 then some .invalidProperties else none)
      return s
    else
      let s ← layerProp c typ plength s
      layerProps c f s

/-- with enough fuel -/
def readLayerProperties (c : Ctx) : M LProps := fun r => layerProps c (r.data.length + 2) LProps.start r

/-- xcf/channel.go:29-51 `skipProperties`. -/
def skipProperties : Nat → M Unit
  | 0 => M.hang
  | f + 1 => do
    let typ ← readUint32
    let plength ← readUint32
    if typ = 0 then setErr? (if plength ≠ 0 then some .invalidProperties else none)
    else if typ = 6 then
      let o ← readUint32
      setErr? (if o > 255 then some .invalidOpacity else none)
      skipProperties f
    else
      skip plength
      skipProperties f

/-- with enough fuel -/
def skipPropertiesAll : M Unit := fun r => skipProperties (r.data.length + 2) r

/-- a decoded grey image as `*image.Gray` -/
def EagerImg.gray (im : EagerImg) : GrayImg :=
  ⟨sizeRect im.width im.height, fun p => (im.px p.x.toNat p.y.toNat).getD 0 0⟩

/-- xcf/channel.go:5-27 `ReadChannel`: `none` = nil; the type assertion of line 23 panics for a
compressed image. -/
def readChannel (c : Ctx) : M (Option GrayImg) := do
  let width ← readUint32
  let height ← readUint32
  skipString
  skipPropertiesAll
  let hptr ← readPtr c.mode
  goto hptr
  match ← readImage c width height 2 with
  | none => return none
  | some (.eager im) => return some im.gray
  | some (.lazy _) => M.panic

/-- `Rectangle.Eq` (standard library): equal, or both empty -/
def Rect.eq (r s : Rect) : Bool := r = s || (r.empty && s.empty)

/-- xcf/layer_decode.go:10-15 `layer`. -/
structure DLayer where
  layer : Layer
  alpha : Bool
  group : Bool
  itemPath : List UInt32

/-- xcf/layer_decode.go:246-262 `readMask`: the new image -/
def readMask (c : Ctx) (bounds : Rect) (im : Img) : M Img := do
  match ← readChannel c with
  | none => return im
  | some m =>
    if bounds.eq m.rect then return .masked im (some m)
    else
      setError .inconsistentData
      return im

/-- image of a layer as read, before text and mask -/
def DecImg.toImg (o : Option DecImg) : Img :=
  match o with
  | none => .nil
  | some d => .leaf d.leaf

/-- layer_decode.go:46-53: the image of a layer that is not a group; `none` = return now -/
def layerImage (c : Ctx) (group : Bool) (width height typ : UInt32) : M (Option Img) :=
  if group then return some .nil
  else do
    match ← readImage c width height typ with
    | none => return none
    | some d => return some (.leaf d.leaf)

/-- layer_decode.go:54-66: the text parasite; `none` = return now -/
def layerText (c : Ctx) (ps : List Parasite) (im : Img) : M (Option Img) :=
  match getParasite ps textParasiteName with
  | none => return some im
  | some t =>
    match c.env.parseText t.data with
    | .panic => M.panic
    | .hang => M.hang
    | .ok none => do
      setError .invalidLayerType
      return none
    | .ok (some d) => return some (.text im d)

/-- xcf/layer_decode.go:17-73 `ReadLayer`. -/
def readLayer (c : Ctx) : M DLayer := do
  let width ← readUint32
  let height ← readUint32
  let typ ← readUint32
  if typ >>> 1 ≠ c.baseType then
    setError .invalidLayerType
    return ⟨⟨[], ⟨0, 0, width.toNat, height.toNat⟩, 0, false, 0, .nil⟩, false, false, []⟩
  else
    let name ← readString
    let s ← readLayerProperties c
    let hptr ← readPtr c.mode
    let mptr ← readPtr c.mode
    goto hptr
    let bounds : Rect := (⟨0, 0, width.toNat, height.toNat⟩ : Rect).add s.off
    let mk (im : Img) : DLayer :=
      ⟨⟨name, bounds, s.mode, s.invisible, s.transparency, im⟩, typ &&& 1 = 1, s.group, s.itemPath⟩
    match ← layerImage c s.group width height typ with
    | none => return mk .nil
    | some im =>
      match ← layerText c s.parasites im with
      | none => return mk im
      | some im =>
        if mptr ≠ 0 then
          goto mptr
          let im ← readMask c bounds im
          return mk im
        else return mk im

/-! ### The layers of a file -/

/-- first error in the given order -/
def firstErr (errs : List (Option Err)) : List Nat → Option Err
  | [] => none
  | i :: is =>
    match errs.getD i none with
    | some e => some e
    | none => firstErr errs is

/-- outcome of one goroutine of `readLayers` (decoder.go:340-360): the layer and its error -/
def layerAtPtr (c : Ctx) (data : Bytes) (p : UInt64) : Outcome (DLayer × Option Err) :=
  match (do goto p; readLayer c : M DLayer) (newReader data) with
  | .ok (l, r) => .ok (l, r.err)
  | .panic => .panic
  | .hang => .hang

/-- results of all goroutines: a panic ends the program, otherwise one that hangs hangs `wg.Wait` -/
def gather {α : Type} : List (Outcome α) → Outcome (List α)
  | [] => .ok []
  | x :: xs =>
    match x, gather xs with
    | .panic, _ => .panic
    | _, .panic => .panic
    | .hang, _ => .hang
    | _, .hang => .hang
    | .ok a, .ok as => .ok (a :: as)

/-- xcf/decoder.go:327-366 `readLayers`: the layers and the error left in `dr` (which had none). -/
def readLayers (sch : Sched) (c : Ctx) (data : Bytes) (ptrs : List UInt64) :
    Outcome (List DLayer × Option Err) :=
  match gather (ptrs.map (layerAtPtr c data)) with
  | .ok ls => .ok (ls.map (·.1), firstErr (ls.map (·.2)) (sch.layers ptrs.length))
  | .panic => .panic
  | .hang => .hang

/-! ### Groups -/

/-- An image while the tree is built: a value, or the slice with the given array. -/
inductive HImg where
  | val (i : Img)
  | slice (a : Nat)

/-- layers in the heap -/
abbrev HLayer := LayerOf HImg

/-- decoder.go:121-126 `groupOffset`: `cur` is the array of the slice `Group`; the parent is the
`groupOffset` whose field `Parent` points to. -/
structure GroupObj where
  cur : Nat
  ox : Int
  oy : Int
  parent : Option (Nat × Nat)

/-- A map key `string(runes)`: runes that are not Unicode scalar values become U+FFFD; UTF-8 is
injective, so the key is kept as the list of runes. -/
abbrev Key := List Nat

/-- conversion of one rune -/
def runeKey (r : UInt32) : Nat :=
  if r.toNat < 0xd800 ∨ (0xe000 ≤ r.toNat ∧ r.toNat ≤ 0x10ffff) then r.toNat else 0xfffd

/-- `string(path)` -/
def pathKey (p : List UInt32) : Key := p.map runeKey

/-- heap, `groups` map and the local variables of `makeGroups` -/
structure GState where
  arrays : List (List HLayer)
  objs : List GroupObj
  map : List (Key × Nat)
  n : UInt32
  alpha : Bool

/-- decoder.go:369-375 -/
def GState.start : GState := ⟨[[]], [⟨0, 0, 0, none⟩], [([], 0)], 0, true⟩

/-- map lookup -/
def lookupKey (m : List (Key × Nat)) (k : Key) : Option Nat := (m.find? fun e => e.1 = k).map (·.2)

/-- map assignment -/
def assignKey (m : List (Key × Nat)) (k : Key) (v : Nat) : List (Key × Nat) :=
  m.filter (fun e => e.1 ≠ k) ++ [(k, v)]

/-- One layer, decoder.go:377-404.  The slice `g.Group` has a single owner here, so appending in place
and reallocating are the same. -/
def groupStep (bounds : Rect) (l : DLayer) (s : GState) : Except Err GState :=
  if s.alpha = false then .error .missingAlpha
  else
    let path := if l.itemPath = [] then [s.n] else l.itemPath
    let n := if l.itemPath = [] then s.n + 1 else s.n
    match lookupKey s.map (pathKey path.dropLast) with
    | none => .error .invalidGroup
    | some gi =>
      match s.objs[gi]? with
      | none => .error .invalidGroup -- not reachable
      | some g =>
        let items := s.arrays.getD g.cur []
        let lb := (l.layer.bounds.inter bounds).sub ⟨g.ox, g.oy⟩
        let hl : HLayer := ⟨l.layer.name, lb, l.layer.mode, l.layer.invisible, l.layer.transparency,
          .val l.layer.image⟩
        let arrays := s.arrays.set g.cur (items ++ [hl])
        if l.group then
          .ok ⟨arrays ++ [[]],
            s.objs ++ [⟨s.arrays.length, l.layer.bounds.x0, l.layer.bounds.y0, some (gi, items.length)⟩],
            assignKey s.map (pathKey path) s.objs.length, n, l.alpha⟩
        else .ok ⟨arrays, s.objs, s.map, n, l.alpha⟩

/-- xcf/decoder.go:368-409 `makeGroups`. -/
def makeGroups (bounds : Rect) : List DLayer → GState → Except Err GState
  | [], s => .ok s
  | l :: ls, s =>
    match groupStep bounds l s with
    | .error e => .error e
    | .ok s => makeGroups bounds ls s

/-- state of the loop of `makeImage`: heap, objects, the variable `im` -/
structure MState where
  arrays : List (List HLayer)
  objs : List GroupObj
  im : Option Nat

/-- replacing the image of element `k`; `none` = index out of range -/
def setImage (a : List HLayer) (k : Nat) (i : HImg) : Option (List HLayer) :=
  match a[k]? with
  | none => none
  | some l => some (a.set k { l with image := i })

/-- One group, decoder.go:414-426. `none` = panic. -/
def imageStep (gi : Nat) (s : MState) : Option MState := do
  let g ← s.objs[gi]?
  let a ← s.arrays[g.cur]?
  let na := s.arrays.length
  let arrays := s.arrays ++ [a]
  let objs := s.objs.set gi { g with cur := na }
  match g.parent with
  | none => some ⟨arrays, objs, some na⟩
  | some (pi, off) => do
    let p ← objs[pi]?
    let pa ← arrays[p.cur]?
    let pa ← setImage pa off (.slice na)
    some ⟨arrays.set p.cur pa, objs, s.im⟩

/-- the loop over the map -/
def imageSteps : List Nat → MState → Option MState
  | [], s => some s
  | g :: gs, s => do
    let s ← imageStep g s
    imageSteps gs s

/-- the value of a slice: following the references -/
def resolve (arrays : List (List HLayer)) : Nat → Nat → List Layer
  | 0, _ => []
  | f + 1, a => (arrays.getD a []).map fun l =>
    ⟨l.name, l.bounds, l.mode, l.invisible, l.transparency,
      match l.image with
      | .val i => i
      | .slice b => .group (resolve arrays f b)⟩

/-- decoder.go:429-435: the mode of the bottom layer -/
def fixBottom (g : List Layer) : List Layer :=
  match g.getLast? with
  | none => g
  | some l =>
    if l.mode = Mode.normal ∨ l.mode = Mode.dissolve then g else g.dropLast ++ [{ l with mode := 0 }]

/-- xcf/decoder.go:411-438 `makeImage`: the map is iterated in the order `order` of its entries.
`none` = panic. -/
def makeImage (order : List Nat) (s : GState) : Option (List Layer) := do
  let ks := order.filterMap fun i => (s.map[i]?).map (·.2)
  let m ← imageSteps ks ⟨s.arrays, s.objs, none⟩
  match m.im with
  | none => some []
  | some a => some (fixBottom (resolve m.arrays (m.arrays.length + 1) a))

/-! ### Whole files -/

/-- what `decodeImage` reads in front of the layers -/
structure Head where
  mode : UInt32
  width : UInt32
  height : UInt32
  baseType : UInt32
  props : IProps
  ptrs : List UInt64

/-- decoder.go:146-148 (and, with a different condition, :91-93): a number that is not used -/
def readPrecision (present : Bool) : M UInt32 := if present then readUint32 else pure 0

/-- xcf/decoder.go:131-156: header, sizes, properties, layer pointers -/
def readHead : M (Except Err Head) := do
  match ← readHeader with
  | .error e => return .error e
  | .ok mode =>
    let width ← readUint32
    let height ← readUint32
    let baseType ← readUint32
    let _ ← readPrecision (mode > 0)
    match ← readImageProperties baseType with
    | .error e => return .error e
    | .ok props =>
      let ptrs ← readLayerPointers mode
      match ← getErr with
      | some e => return .error e
      | none => return .ok ⟨mode, width, height, baseType, props, ptrs⟩

/-- the settings for the layers -/
def Head.ctx (h : Head) (env : Env) (decompress : Bool) : Ctx :=
  ⟨env, h.props.compression, decompress, h.baseType, h.props.palette, h.mode⟩

/-- decoder.go:158-171, after the head -/
def decodeLayers (env : Env) (sch : Sched) (decompress : Bool) (data : Bytes) (h : Head) :
    Outcome (Except Err (List Layer)) :=
  match readLayers sch (h.ctx env decompress) data h.ptrs with
  | .panic => .panic
  | .hang => .hang
  | .ok (_, some e) => .ok (.error e)
  | .ok (ls, none) =>
    match makeGroups (sizeRect h.width.toNat h.height.toNat) ls GState.start with
    | .error e => .ok (.error e)
    | .ok s =>
      match makeImage (sch.groups s.map.length) s with
      | none => .panic
      | some im => .ok (.ok im)

/-- xcf/decoder.go:128-172 `decodeImage`; `decompress` is true for `Decode` (:111-113) and false for
`DecodeCompressed` (:117-119). -/
def decodeImage (env : Env) (sch : Sched) (decompress : Bool) (data : Bytes) :
    Outcome (Except Err (List Layer)) :=
  match readHead (newReader data) with
  | .panic => .panic
  | .hang => .hang
  | .ok (.error e, _) => .ok (.error e)
  | .ok (.ok h, _) => decodeLayers env sch decompress data h

/-- `image.Config`; the colour model is nil for unknown base types. -/
structure Config where
  width : Nat
  height : Nat
  model : Option ColorModel

/-- xcf/decoder.go:75-108 `DecodeConfig`, with the error returned beside the configuration.
`other` is `color.NRGBAModel`. -/
def decodeConfigM : M (Config × Option Err) := do
  match ← readHeader with
  | .error e => return (⟨0, 0, none⟩, some e)
  | .ok mode =>
    let width ← readUint32
    let height ← readUint32
    let baseType ← readUint32
    let _ ← readPrecision (mode = 2)
    if baseType = 0 then
      let e ← getErr
      return (⟨width.toNat, height.toNat, some .other⟩, e)
    else if baseType = 1 then
      let e ← getErr
      return (⟨width.toNat, height.toNat, some .grayAlpha⟩, e)
    else if baseType = 2 then
      match ← readImageProperties 2 with
      | .error e => return (⟨width.toNat, height.toNat, none⟩, some e)
      | .ok p =>
        let e ← getErr
        return (⟨width.toNat, height.toNat, some (.alphaPalette p.palette)⟩, e)
    else
      let e ← getErr
      return (⟨width.toNat, height.toNat, none⟩, e)

/-- `DecodeConfig` of a file -/
def decodeConfig (data : Bytes) : Outcome (Config × Option Err) :=
  match decodeConfigM (newReader data) with
  | .ok (x, _) => .ok x
  | .panic => .panic
  | .hang => .hang

end Limage
