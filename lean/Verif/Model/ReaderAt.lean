import Verif.Model.Reader
/-!
# The ReaderAt of a seeker (internal/bufioToReader.go)

Any number of calls of `ReadAt` run at the same time; a call is a number.  A step is what one goroutine does between two points
at which others can see it.  The `io.ReadSeeker` is nondeterministic: `Seek` may fail, and then leaves the position anywhere and
returns anything; `Read` returns some of the bytes from its position on, at most as many as asked for, with or without an error.
Not modelled: a `Read` or `Seek` that does not return; content that changes.
-/
namespace Limage

/-- where a call of `ReadAt` is -/
inductive CallState where
  /-- bufioToReader.go:26-27, before `Lock` -/
  | idle
  /-- :29-34, it has the mutex -/
  | locked
  /-- :41, before `Read` -/
  | placed
  /-- :42, before the position is updated -/
  | got (bs : Bytes) (err : Bool)
  /-- :43, before `Unlock` -/
  | moved (bs : Bytes) (err : Bool)
  /-- :37, :45, it has returned the bytes and an error or nil -/
  | done (bs : Bytes) (err : Bool)

/-- bufioToReader.go:20-24 `readerAt`, the position at which the seeker really is, and the calls -/
structure AtState where
  /-- who has `readMutex` -/
  mutex : Option Nat
  /-- the field `pos` -/
  pos : Int
  /-- the position of `ReadSeeker` -/
  real : Int
  call : Nat → CallState

/-- the state with another state of a call -/
def AtState.set (s : AtState) (i : Nat) (c : CallState) : AtState := { s with call := fun j => if j = i then c else s.call j }

/-- what an `io.ReadSeeker` does -/
structure Seeker where
  data : Bytes
  /-- offsets to which `Seek` can succeed -/
  succeeds : Int → Prop
  /-- offsets to which `Seek` can fail -/
  fails : Int → Prop
  /-- what `Read` can do: bytes asked for, bytes left, bytes read, whether it returns an error -/
  reads : Nat → Nat → Nat → Bool → Prop

/-- A step of `ReadAt` (bufioToReader.go:26-46).  `args` are the offset and the length of the buffer of each call. -/
inductive RStep (k : Seeker) (args : Nat → Int × Nat) : AtState → AtState → Prop
  /-- :27 -/
  | lock {s i} : s.call i = .idle → s.mutex = none → RStep k args s ({ s with mutex := some i }.set i .locked)
  /-- :34, the position is the right one -/
  | same {s i} : s.call i = .locked → (args i).1 = s.pos → RStep k args s (s.set i .placed)
  /-- :35, `Seek` succeeds -/
  | seek {s i} : s.call i = .locked → (args i).1 ≠ s.pos → k.succeeds (args i).1 →
      RStep k args s ({ s with pos := (args i).1, real := (args i).1 }.set i .placed)
  /-- :35-38, `Seek` fails: the function returns without `Unlock` -/
  | seekFails {s i} (v p : Int) : s.call i = .locked → (args i).1 ≠ s.pos → k.fails (args i).1 →
      RStep k args s ({ s with pos := v, real := p }.set i (.done [] true))
  /-- :41 -/
  | read {s i} (n : Nat) (err : Bool) : s.call i = .placed → n ≤ (args i).2 → n ≤ (k.data.drop s.real.toNat).length →
      k.reads (args i).2 (k.data.drop s.real.toNat).length n err →
      RStep k args s ({ s with real := s.real + n }.set i (.got ((k.data.drop s.real.toNat).take n) err))
  /-- :42 -/
  | move {s i bs err} : s.call i = .got bs err → RStep k args s ({ s with pos := s.pos + bs.length }.set i (.moved bs err))
  /-- :43-45 -/
  | unlock {s i bs err} : s.call i = .moved bs err → RStep k args s ({ s with mutex := none }.set i (.done bs err))

/-- a reader given to `GetReaderAt`: what it implements, and for a seeker where it is -/
inductive Source where
  | readerAt
  | seeker (p : Int)
  /-- a `*bufio.Reader` around a reader -/
  | bufio (r : Source)
  | other

/-- the result of `GetReaderAt`: nil, the reader itself, or a `readerAt` around a seeker at the given position -/
inductive Access where
  | none
  | direct
  | seeks (p : Int)

/-- bufioToReader.go:48-62 `bufioToReader`: a seeker is rewound (an error of this `Seek` is ignored: `p0` is where it is then) -/
def bufioToReader (p0 : Int) : Source → Access
  | .readerAt => .direct
  | .seeker _ => .seeks p0
  | _ => .none

/-- bufioToReader.go:65-75 `GetReaderAt` -/
def getReaderAt (p0 : Int) : Source → Access
  | .bufio r => bufioToReader p0 r
  | .readerAt => .direct
  | .seeker p => .seeks p
  | .other => .none

/-- bufioToReader.go:56, :71: a new `readerAt` has position 0 -/
def AtState.start (p0 : Int) : AtState := ⟨none, 0, p0, fun _ => .idle⟩

end Limage
