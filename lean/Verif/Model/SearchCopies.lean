import Verif.Model.Logger
/-!
Copies (`copy.deepcopy`) and pickles of search algorithms which have loggers: `src/evotorch/logging.py`, `src/evotorch/algorithms/searchalgorithm.py`.

A search is its state and its generation number; one step is an arbitrary function of the state and of what is drawn from outside (random numbers, evaluations). A deep copy copies the state (that deep
clones share nothing is C37; a problem with a generator of its own cannot be copied, C103). A search is alive as long as someone refers to it.
-/
namespace EvoTorch.SearchCopies
variable {σ D : Type}

/-- A logger: when it is due (logging.py 88-101), for a `PicklingLogger` the search to which its weak reference refers (logging.py 202), and `_last_generation` (logging.py 235). -/
structure Log where
  timer : Logger.Logger
  pickling : Option Nat
  last : Option Nat

/-- A search algorithm (searchalgorithm.py 298-305) with the loggers of its hooks. -/
structure Search (σ : Type) where
  state : σ
  gen : Nat
  logs : List Log
  alive : Bool

/-- A report: which search logged (`by`), by a `PicklingLogger` or not, and the generation and the state which were reported. -/
structure Rec (σ : Type) where
  who : Nat
  pickle : Bool
  gen : Nat
  state : σ

structure World (σ : Type) where
  searches : List (Search σ)
  out : List (Rec σ)

/-- `self._searcher_ref()` (logging.py 260, 288). -/
def deref (ss : List (Search σ)) (t : Nat) : Option (Search σ) :=
  match ss[t]? with
  | some s => if s.alive then some s else none
  | none => none

/-- `save` (logging.py 287-391), when search `i` calls the logger. -/
def save (ss : List (Search σ)) (i t : Nat) (l : Log) : Log × List (Rec σ) :=
  match deref ss t with
  | some s => ({ l with last := some s.gen }, [⟨i, true, s.gen, s.state⟩])
  | none => (l, [])

/-- A logger is called with the status of search `i` (searchalgorithm.py 396-397, logging.py 92-101): a `PicklingLogger` ignores the status and saves (logging.py 255-256), the others report the status. -/
def callLog (ss : List (Search σ)) (i : Nat) (l : Log) : Log × List (Rec σ) :=
  let o := Logger.call l.timer
  let l' := { l with timer := o.state }
  match o.result with
  | .ok true =>
    match l'.pickling with
    | some t => save ss i t l'
    | none =>
      match ss[i]? with
      | some s => (l', [⟨i, false, s.gen, s.state⟩])
      | none => (l', [])
  | _ => (l', [])

/-- `_final_save` (logging.py 258-269), called by the end-of-run hook of search `i` (logging.py 199, searchalgorithm.py 427-428). -/
def finalLog (ss : List (Search σ)) (i : Nat) (l : Log) : Log × List (Rec σ) :=
  match l.pickling with
  | none => (l, [])
  | some t =>
    match deref ss t with
    | none => (l, [])
    | some s => if l.last.all (fun g => decide (s.gen > g)) then save ss i t l else (l, [])

/-- What can happen. `new`: a search is made; `attach`: a logger is made for search `i`; `step`: one step of it with what is drawn; `finish`: the end of a run; `copy`: a deep copy is made; `drop`: the last
reference to it is given up. -/
inductive Op (σ D : Type) where
  | new (s : σ)
  | attach (i : Nat) (timer : Logger.Logger) (pickling : Bool)
  | step (i : Nat) (d : D)
  | finish (i : Nat)
  | copy (i : Nat)
  | drop (i : Nat)

/-- All loggers of search `i` are called. -/
def logAll (f : List (Search σ) → Nat → Log → Log × List (Rec σ)) (w : World σ) (i : Nat) (s : Search σ) : World σ :=
  ⟨w.searches.set i { s with logs := s.logs.map fun l => (f w.searches i l).1 }, w.out ++ s.logs.flatMap fun l => (f w.searches i l).2⟩

/-- One operation; `f` is the step of the algorithm. Operations on searches which are not alive do nothing (there is no such expression). The weak reference of a copied `PicklingLogger` is that of the
original: `copy` treats weak references as atomic. -/
def World.step (f : σ → D → σ) (w : World σ) : Op σ D → World σ
  | .new s => { w with searches := w.searches ++ [⟨s, 0, [], true⟩] }
  | .attach i timer p =>
    match deref w.searches i with
    | none => w
    | some s => { w with searches := w.searches.set i { s with logs := s.logs ++ [⟨timer, if p then some i else none, none⟩] } }
  | .step i d => -- searchalgorithm.py 384-397
    match deref w.searches i with
    | none => w
    | some s =>
      let s' := { s with state := f s.state d, gen := s.gen + 1 }
      logAll callLog { w with searches := w.searches.set i s' } i s'
  | .finish i =>
    match deref w.searches i with
    | none => w
    | some s => logAll finalLog w i s
  | .copy i =>
    match deref w.searches i with
    | none => w
    | some s => { w with searches := w.searches ++ [s] }
  | .drop i => { w with searches := w.searches.modify i fun s => { s with alive := false } }

/-- A history. -/
def run (f : σ → D → σ) (ops : List (Op σ D)) : World σ := ops.foldl (World.step f) ⟨[], []⟩

/-- `pickle.dumps(search)`: weak references cannot be pickled (logging.py 202). -/
def pickle (s : Search σ) : Except PyErr (Search σ) := if s.logs.any fun l => l.pickling.isSome then .error .typeError else .ok s

end EvoTorch.SearchCopies
