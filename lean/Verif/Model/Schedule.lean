import Verif.Model.XcfDecode
/-!
# The goroutines of `readLayers`: xcf/decoder.go:327-366

An interleaving model.  Each goroutine runs `ReadLayer` on its own reader, in any number of steps
that touch nothing shared (the contents are only read), stores the layer, and, if there was an error,
takes the lock, calls `SetError` and releases the lock; then it calls `wg.Done`.  `readLayers` returns
when the counter of the wait group is zero.

Simplifications: memory is sequentially consistent (every shared access is ordered by the lock or by
the wait group, and the array slots are distinct); goroutines that panic or hang are not in this model
(`gather` in `Verif.Model.XcfDecode` has them).
-/
namespace Limage

/-- where a goroutine is; decoder.go:338-360 -/
inductive Phase where
  | reading (k : Nat) -- k steps of `ReadLayer` left
  | locking           -- before `errLock.Lock()`
  | holding           -- before `dr.SetError(d.Err)`
  | unlocking         -- before `errLock.Unlock()`
  | finishing         -- before `wg.Done()`
  | finished
deriving DecidableEq, Repr

/-- the shared state -/
structure PState where
  phase : Nat → Phase
  slot : Nat → Option DLayer
  lock : Option Nat
  err : Option Err
  wg : Nat

/-- function update -/
def upd {α : Type} (f : Nat → α) (i : Nat) (x : α) : Nat → α := fun j => if j = i then x else f j

/-- decoder.go:328-338: `wg.Add(len(layerptrs))` and all goroutines started; `work i` is the number of
steps `ReadLayer` takes in goroutine `i`. -/
def PState.start (n : Nat) (work : Nat → Nat) : PState := ⟨fun i => .reading (work i), fun _ => none, none, none, n⟩

/-- One step of goroutine `i < n`; `res i` is what its `ReadLayer` returns and the error of its reader. -/
inductive PStep (n : Nat) (res : Nat → DLayer × Option Err) : PState → PState → Prop
  | read (s : PState) (i k : Nat) : i < n → s.phase i = .reading (k + 1) →
      PStep n res s { s with phase := upd s.phase i (.reading k) }
  | store (s : PState) (i : Nat) : i < n → s.phase i = .reading 0 →
      PStep n res s { s with
        slot := upd s.slot i (some (res i).1)
        phase := upd s.phase i (if (res i).2.isSome then .locking else .finishing) }
  | lock (s : PState) (i : Nat) : i < n → s.phase i = .locking → s.lock = none →
      PStep n res s { s with lock := some i, phase := upd s.phase i .holding }
  | setError (s : PState) (i : Nat) : i < n → s.phase i = .holding →
      PStep n res s { s with err := s.err.or (res i).2, phase := upd s.phase i .unlocking }
  | unlock (s : PState) (i : Nat) : i < n → s.phase i = .unlocking →
      PStep n res s { s with lock := none, phase := upd s.phase i .finishing }
  | done (s : PState) (i : Nat) : i < n → s.phase i = .finishing →
      PStep n res s { s with wg := s.wg - 1, phase := upd s.phase i .finished }

/-- any number of steps -/
inductive PSteps (n : Nat) (res : Nat → DLayer × Option Err) : PState → PState → Prop
  | refl (s : PState) : PSteps n res s s
  | tail {s t u : PState} : PSteps n res s t → PStep n res t u → PSteps n res s u

end Limage
