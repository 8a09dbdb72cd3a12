import Mathlib.Logic.Function.Basic
import Mathlib.Data.List.Basic
/-!
# Slices, chunks and scoped threads

Rust slices are `Array`s or `List`s; an out-of-bounds access panics, which is `none`.
-/
namespace Halo

namespace Mem
variable {α : Type}

/-- `a[i]` -/
def get (a : Array α) (i : ℕ) : Option α := a[i]?
/-- `a[i] = v` -/
def set (a : Array α) (i : ℕ) (v : α) : Option (Array α) :=
  if h : i < a.size then some (a.set i v h) else none
/-- `a.swap(i, j)` -/
def swap (a : Array α) (i j : ℕ) : Option (Array α) := do
  let x ← get a i
  let y ← get a j
  let a ← set a i y
  set a j x

end Mem

/-- Worker of `chunks`, with fuel. -/
def chunksAux {α : Type} (n : ℕ) : ℕ → List α → List (List α)
  | 0, _ => []
  | fuel + 1, l => if l.isEmpty then [] else l.take n :: chunksAux n fuel (l.drop n)

/-- `slice::chunks(n)` and `chunks_mut(n)` of the standard library: consecutive pieces of length
`n`, the last one possibly shorter; panics for `n = 0`. -/
def chunks {α : Type} (n : ℕ) (l : List α) : Option (List (List α)) :=
  if n = 0 then none else some (chunksAux n l.length l)

/-! ## Scoped threads

`crossbeam_utils::thread::scope` with one `spawn` per chunk.  Each spawned closure owns (by
`&mut` borrow, enforced by the Rust compiler) one component of the state and only reads shared
data.  `Threads` is the explicit-interleaving semantics: a schedule picks, at every step, which
thread performs its next atomic step.  The models of the functions below use the sequential
result; `Verif.Lemmas.Mem.schedule_independent` proves that every complete schedule gives it. -/

/-- Per-thread owned state and remaining atomic steps. -/
structure Thread (σ : Type) where
  state : σ
  todo : List (σ → σ)

/-- One atomic step of a thread (nothing to do: the thread has finished). -/
def Thread.step {σ : Type} (t : Thread σ) : Thread σ :=
  match t.todo with
  | [] => t
  | f :: fs => ⟨f t.state, fs⟩

/-- Run a schedule: a list of thread numbers. -/
def runSchedule {σ : Type} (ts : List (Thread σ)) (sched : List ℕ) : List (Thread σ) :=
  sched.foldl (fun ts i => ts.modify i Thread.step) ts

/-- All threads have finished, as `scope` waits for. -/
def allDone {σ : Type} (ts : List (Thread σ)) : Prop := ∀ t ∈ ts, t.todo = []

/-- The state a thread reaches when run alone. -/
def Thread.result {σ : Type} (t : Thread σ) : σ := t.todo.foldl (fun s f => f s) t.state

end Halo
