import Verif.Model.Nbinom
import Mathlib.Logic.Relation

/-!
# Model of the parallel loops of `cyclic_boosting/nbinom.py`

`loss_nbinom_c` and `compute_2d_loss` are compiled with `parallel=True`. The iterations of a loop over `nb.prange` are handed out to threads, which run
interleaved on a shared memory. If the compilation fails, the same functions are compiled for one thread.

The model has no bound on the number of threads, any distribution of the iterations, and interleaves single steps: one summand of one sample, or one
entry of an array written. Values are of an arbitrary type with arbitrary operations, so that floats with their rounding are included.
-/

set_option autoImplicit false

namespace CB

/-- The body of a loop: the local memory at the beginning of an iteration and what its next step does with it, which may be a write into the shared memory;
`none` is the end of the iteration. Steps do not read from the shared memory: in both loops the arrays that are read are never written.
Models: cyclic_boosting/nbinom.py:190-191,243-244. -/
structure LoopBody (A V L : Type*) where
  start : ℕ → L
  next : ℕ → L → Option (L × Option (A × V))

/-- A thread: the iterations handed out to it that it has not begun, and the number and local memory of the one it is in.
Models: cyclic_boosting/nbinom.py:22-39 (`parallel=True`). -/
structure LoopThread (L : Type*) where
  queue : List ℕ
  current : Option (ℕ × L)

/-- The shared memory and the threads.
Models: cyclic_boosting/nbinom.py:22-39 (`parallel=True`). -/
structure LoopState (A V L : Type*) where
  memory : A → V
  threads : List (LoopThread L)

section
variable {A V L : Type*} [DecidableEq A]

/-- A write into the shared memory.
Models: cyclic_boosting/nbinom.py:191,244. -/
def writeTo (memory : A → V) (w : A × V) : A → V := fun a => if a = w.1 then w.2 else memory a

/-- One step of one of the threads, whichever it is.
Models: cyclic_boosting/nbinom.py:190-191,243-244 (`nb.prange`). -/
inductive LoopStep (B : LoopBody A V L) : LoopState A V L → LoopState A V L → Prop
  | begins (st : LoopState A V L) (t : ℕ) (q : List ℕ) (i : ℕ) (h : st.threads[t]? = some ⟨i :: q, none⟩) :
      LoopStep B st ⟨st.memory, st.threads.set t ⟨q, some (i, B.start i)⟩⟩
  | works (st : LoopState A V L) (t : ℕ) (q : List ℕ) (i : ℕ) (l l' : L) (h : st.threads[t]? = some ⟨q, some (i, l)⟩)
      (hn : B.next i l = some (l', none)) : LoopStep B st ⟨st.memory, st.threads.set t ⟨q, some (i, l')⟩⟩
  | writes (st : LoopState A V L) (t : ℕ) (q : List ℕ) (i : ℕ) (l l' : L) (w : A × V) (h : st.threads[t]? = some ⟨q, some (i, l)⟩)
      (hn : B.next i l = some (l', some w)) : LoopStep B st ⟨writeTo st.memory w, st.threads.set t ⟨q, some (i, l')⟩⟩
  | ends (st : LoopState A V L) (t : ℕ) (q : List ℕ) (i : ℕ) (l : L) (h : st.threads[t]? = some ⟨q, some (i, l)⟩)
      (hn : B.next i l = none) : LoopStep B st ⟨st.memory, st.threads.set t ⟨q, none⟩⟩

end

/-- The beginning of a loop over `n` iterations: each is handed out to exactly one thread, in some way, and no thread has begun.
Models: cyclic_boosting/nbinom.py:190,243 (`nb.prange`). -/
def LoopState.Begins {A V L : Type*} (n : ℕ) (st : LoopState A V L) : Prop :=
  (∀ t ∈ st.threads, t.current = none) ∧ (st.threads.flatMap (·.queue)).Perm (List.range n)

/-- The end of a loop, when the function goes on: no thread has anything left to do.
Models: cyclic_boosting/nbinom.py:193,246. -/
def LoopState.Done {A V L : Type*} (st : LoopState A V L) : Prop := ∀ t ∈ st.threads, t.current = none ∧ t.queue = []

/-- The local memory of an iteration of `compute_2d_loss`: how many samples are summed up, the losses of the bins so far, and how many of them are copied
into the shared array.
Models: cyclic_boosting/nbinom.py:199-224. -/
structure BinnedLocal (V : Type*) where
  samples : ℕ
  loss : ℕ → V
  copied : ℕ

/-- The loop of `compute_2d_loss` with `n` samples in bins `codes` and `minlength` bins: `contribution i s` is what sample `s` adds to the loss of its bin for
candidate `i`. `add` and `zero` are the addition of floats and 0.0.
Models: cyclic_boosting/nbinom.py:199-246. -/
def binnedBody {V : Type*} (add : V → V → V) (zero : V) (n minlength : ℕ) (codes : ℕ → ℕ) (contribution : ℕ → ℕ → V) :
    LoopBody (ℕ × ℕ) V (BinnedLocal V) where
  start _ := ⟨0, fun _ => zero, 0⟩
  next i l :=
    if l.samples < n then
      some (⟨l.samples + 1, fun b => if b = codes l.samples then add (l.loss b) (contribution i l.samples) else l.loss b, l.copied⟩, none)
    else if l.copied < minlength then some (⟨l.samples, l.loss, l.copied + 1⟩, some ((i, l.copied), l.loss l.copied))
    else none

/-- The loop of `loss_nbinom_c`: one write per sample.
Models: cyclic_boosting/nbinom.py:190-191. -/
def sampleBody {V : Type*} (value : ℕ → V) : LoopBody ℕ V Bool where
  start _ := false
  next i written := if written then none else some (true, some (i, value i))

/-- `np.mean` in a function compiled in parallel mode, before the division: every thread sums up a part of the array, then the sums are added.
Models: cyclic_boosting/nbinom.py:196. -/
def parallelSum {V : Type*} (add : V → V → V) (zero : V) (parts : List (List V)) : V :=
  (parts.map fun l => l.foldl add zero).foldl add zero

noncomputable section

/-- `calc_parameters_nbinom_c` for bin `b` after the parallel loop: what is made of the array of losses.
Models: cyclic_boosting/nbinom.py:249-273. -/
def offsetFromLosses (bayes : Bool) (loss : ℕ × ℕ → ℝ) (cands : List ℝ) (b : ℕ) : ℝ :=
  let column := (List.range cands.length).map fun i => loss (i, b)
  if bayes then
    let l := column.map fun x => -x
    let m := l.foldl max (l.headD 0)
    let w := l.map fun x => Real.exp (x - m)
    (List.zipWith (fun x c => x / w.sum * c) w cands).sum
  else cands.getD (argmin column) 0

end

end CB
