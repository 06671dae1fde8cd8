import Verif.Model.XcfImage
/-!
# Calls of `At` of a compressed image at the same time: xcf/compressed.go

An interleaving model.  The image has one buffer for all callers (compressed.go:14-19) and no lock.  A step is one access of a
call to what is shared: the comparison with `c.tile`, the store of one byte of the buffer, the assignment to `c.tile`, the read
of one byte of the buffer.

Simplifications: memory is sequentially consistent; a call stores the bytes of the buffer from the first to the last, and those
that `rle.Read` does not fill are stored unchanged; four bytes are read whatever the kind (`lazyColor` uses those of the kind).
-/
namespace Limage

/-- compressed.go:22: the number of the tile of a point -/
def LazyImg.tileIndex (im : LazyImg) (p : Pt) : Nat := (p.y.toNat / 64) * ((im.width + 63) / 64) + p.x.toNat / 64
/-- compressed.go:42-46: the place of a point in the buffer -/
def LazyImg.pixelIndex (im : LazyImg) (p : Pt) : Nat :=
  if p.x.toNat < im.width / 64 * 64 then 64 * (p.y.toNat % 64) + p.x.toNat % 64
  else (im.width % 64) * (p.y.toNat % 64) + p.x.toNat % 64
/-- compressed.go:66, 186-192: the buffer is looked at -/
def LazyImg.looks (im : LazyImg) (p : Pt) : Bool :=
  !(decide (im.kind ≥ 4) && im.palette.isEmpty) && decide (0 ≤ p.x ∧ p.x < im.width ∧ 0 ≤ p.y ∧ p.y < im.height)

/-- where a call of `At` is -/
inductive AtCall where
  | idle
  /-- compressed.go:30-36, the bytes up to the `i`th are stored -/
  | writing (i : Nat)
  /-- :42 and :72-76, these bytes are read -/
  | placed (got : Bytes)
  /-- it has returned the colour; `none`: it has panicked for an index outside the palette -/
  | done (c : Option Color)
  /-- it has panicked in `decompressTile` -/
  | failed

/-- the image's fields `tile` and `decompressed`, and the calls -/
structure RaceState where
  cache : Cache
  call : Nat → AtCall

/-- the state with another state of a call -/
def RaceState.set (s : RaceState) (a : Nat) (c : AtCall) : RaceState := { s with call := fun b => if b = a then c else s.call b }

/-- one step of the call `a`; `args` are the points asked for -/
inductive RaceStep (im : LazyImg) (args : Nat → Pt) : RaceState → RaceState → Prop
  /-- compressed.go:66-68, 186-192 -/
  | outside {s a} : s.call a = .idle → im.looks (args a) = false →
      RaceStep im args s (s.set a (.done (if im.kind ≥ 4 ∧ im.palette.isEmpty then none else lazyOutside im.kind im.palette)))
  /-- :22, the tile is there -/
  | hit {s a} : s.call a = .idle → im.looks (args a) = true → (im.tileIndex (args a) : Int) = s.cache.tile →
      RaceStep im args s (s.set a (.placed []))
  /-- :22, it is not -/
  | miss {s a} : s.call a = .idle → im.looks (args a) = true → (im.tileIndex (args a) : Int) ≠ s.cache.tile →
      RaceStep im args s (s.set a (.writing 0))
  /-- :30, there is no such tile -/
  | noTile {s a i} : s.call a = .writing i → im.tiles[im.tileIndex (args a)]? = none → RaceStep im args s (s.set a .failed)
  /-- :31, the slice is outside the buffer -/
  | noRoom {s a i ds} : s.call a = .writing i → im.tiles[im.tileIndex (args a)]? = some ds →
      decompressChannels ds 0 Rle.start none s.cache.dec = .panic → RaceStep im args s (s.set a .failed)
  /-- :31, a byte is stored -/
  | store {s a i ds dec} : s.call a = .writing i → i < 16384 → im.tiles[im.tileIndex (args a)]? = some ds →
      decompressChannels ds 0 Rle.start none s.cache.dec = .ok dec →
      RaceStep im args s ({ s with cache := ⟨s.cache.tile, s.cache.dec.set i (dec.getD i 0)⟩ }.set a (.writing (i + 1)))
  /-- :38 -/
  | mark {s a} : s.call a = .writing 16384 →
      RaceStep im args s ({ s with cache := ⟨im.tileIndex (args a), s.cache.dec⟩ }.set a (.placed []))
  /-- :73-75, a byte is read -/
  | read {s a got} : s.call a = .placed got → got.length < 4 →
      RaceStep im args s (s.set a (.placed (got ++ [s.cache.dec.getD (im.pixelIndex (args a) + 4096 * got.length) 0])))
  /-- :72 -/
  | ret {s a got} : s.call a = .placed got → got.length = 4 →
      RaceStep im args s (s.set a (.done (lazyColor im.kind im.palette got)))

/-- any number of steps -/
inductive RaceSteps (im : LazyImg) (args : Nat → Pt) : RaceState → RaceState → Prop
  | refl (s : RaceState) : RaceSteps im args s s
  | tail {s t u : RaceState} : RaceSteps im args s t → RaceStep im args t u → RaceSteps im args s u

/-- no call has begun -/
def RaceState.start (st : Cache) : RaceState := ⟨st, fun _ => .idle⟩

end Limage
