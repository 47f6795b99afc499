import Verif.Model.Base
/-!
Which memory the reported values of a search live in: tensors and the lists of best solutions, allocated and overwritten by the steps of the searchers.
What the numbers are is the subject of other properties; here the contents of tensors are arbitrary arguments (`T` is the type of the contents of a tensor).
-/
namespace EvoTorch.StatusHistory
variable {T : Type}

/-- The two tensors of a `Solution` that is a clone, or of a `SolutionBatch`: decision values and evaluations, by the addresses of their cells. -/
structure Sol where
  vals : Nat
  evs : Nat
deriving DecidableEq, Repr

/-- Memory: tensors, and the Python lists of best (or worst) solutions. -/
structure Mem (T : Type) where
  cells : List T
  lists : List (List (Option Sol))

/-- A new tensor. -/
def Mem.alloc (mem : Mem T) (t : T) : Mem T × Nat := ({ mem with cells := mem.cells ++ [t] }, mem.cells.length)

/-- `tensor[:] = t`, and every other modification in place. -/
def Mem.write (mem : Mem T) (r : Nat) (t : T) : Mem T := { mem with cells := mem.cells.set r t }

/-- A new batch or cloned solution. -/
def Mem.allocSol (mem : Mem T) (v e : T) : Mem T × Sol :=
  let (mem, a) := mem.alloc v
  let (mem, b) := mem.alloc e
  (mem, ⟨a, b⟩)

/-- A searcher and its problem: the lists `_best` and `_worst` of the problem (`none` before the first evaluation), the tensors of the current center and spread (if the searcher has
them), the current population, and the batches made during the current step. -/
structure S (T : Type) where
  mem : Mem T
  prob : Option (Nat × Nat)
  center : Option Nat
  spread : Option Nat
  pop : Option Sol
  scratch : List Sol

/-- The updates of one of the lists by `_get_best_and_worst` (core.py 2374-2385): for every objective, `some (v, e)` if the batch has a better (worse) solution with these values and evaluations,
of which a clone is put into the list. -/
def track (mem : Mem T) (l : Nat) (i : Nat) : List (Option (T × T)) → Mem T
  | [] => mem
  | none :: us => track mem l (i + 1) us
  | some (v, e) :: us =>
    let (mem, sol) := mem.allocSol v e
    track { mem with lists := mem.lists.modify l fun xs => xs.set i (some sol) } l (i + 1) us

/-- `problem.evaluate(batch)`: the evaluations are written into the batch (core.py 2527-2610), then the best and worst solutions are updated, in lists which are made at the first evaluation
(core.py 2340-2353). `m` is the number of objectives. -/
def evaluate (m : Nat) (st : S T) (b : Sol) (evs : T) (bs ws : List (Option (T × T))) : S T :=
  let mem := st.mem.write b.evs evs
  let (mem, lb, lw) := match st.prob with
    | some (lb, lw) => (mem, lb, lw)
    | none => ({ mem with lists := mem.lists ++ [List.replicate m none, List.replicate m none] }, mem.lists.length, mem.lists.length + 1)
  { st with mem := track (track mem lb 0 bs) lw 0 ws, prob := some (lb, lw) }

/-- What the steps of the searchers do with memory. -/
inductive Act (T : Type) where
  /-- a new batch is made -/
  | create (v e : T)
  /-- the `i`-th batch made in this step becomes the population -/
  | adopt (i : Nat)
  /-- the values of the population are overwritten and its evaluations forgotten (`nan`) -/
  | fill (v nan : T)
  /-- the population (`none`) or the `i`-th batch made in this step is evaluated -/
  | evaluate (i : Option Nat) (evs : T) (bs ws : List (Option (T × T)))
  /-- the searcher gets a new center -/
  | center (t : T)
  /-- the searcher gets a new spread -/
  | spread (t : T)

/-- One action. -/
def act (m : Nat) (st : S T) : Act T → S T
  | .create v e => let (mem, b) := st.mem.allocSol v e; { st with mem := mem, scratch := st.scratch ++ [b] }
  | .adopt i => match st.scratch[i]? with
    | some b => { st with pop := some b }
    | none => st
  | .fill v nan => match st.pop with
    | some b => { st with mem := (st.mem.write b.vals v).write b.evs nan }
    | none => st
  | .evaluate none evs bs ws => match st.pop with
    | some b => evaluate m st b evs bs ws
    | none => st
  | .evaluate (some i) evs bs ws => match st.scratch[i]? with
    | some b => evaluate m st b evs bs ws
    | none => st
  | .center t => let (mem, r) := st.mem.alloc t; { st with mem := mem, center := some r }
  | .spread t => let (mem, r) := st.mem.alloc t; { st with mem := mem, spread := some r }

/-- One evaluation of a batch: its result, and what becomes new best and worst solutions. -/
structure Evaluated (T : Type) where
  evs : T
  best : List (Option (T × T))
  worst : List (Option (T × T))

/-- A step of a distribution-based searcher that is not distributed and has a fixed population size: unless it is the first step, `mu` and `sigma` are replaced by new tensors (gaussian.py 359-366,
369-419; distributions.py 579-594), where the controlled update makes one more (gaussian.py 404-416); the population is made by the first step (gaussian.py 286-289) and sampled in place
(gaussian.py 292), then evaluated (gaussian.py 295). -/
def gaussian (first : Bool) (mu sigma : T) (controlled : Option T) (v nan : T) (e : Evaluated T) : List (Act T) :=
  (if first then [.create v nan, .adopt 0] else [.center mu, .spread sigma] ++ (controlled.map .spread).toList) ++ [.fill v nan, .evaluate none e.evs e.best e.worst]

/-- The same with an adaptive population size (gaussian.py 305-349): every round makes and evaluates a new batch, and the batches are concatenated. -/
def adaptive (first : Bool) (mu sigma : T) (controlled : Option T) (rounds : List (T × T × Evaluated T)) (v ev : T) : List (Act T) :=
  (if first then [] else [.center mu, .spread sigma] ++ (controlled.map .spread).toList) ++
    (rounds.zipIdx.flatMap fun (r, i) => [.create r.1 r.2.1, .evaluate (some i) r.2.2.evs r.2.2.best r.2.2.worst]) ++ [.create v ev, .adopt rounds.length]

/-- A step of CMA-ES (cmaes.py 567-606): the population, made by the constructor, is overwritten (cmaes.py 441) and evaluated (cmaes.py 443); `m` and `sigma` are replaced by new tensors (cmaes.py 478,
507). -/
def cmaes (v nan : T) (e : Evaluated T) (m sigma : T) : List (Act T) :=
  [.fill v nan, .evaluate none e.evs e.best e.worst, .center m, .spread sigma]

/-- A step of the genetic algorithm (ga.py 652-688, 160-244): the parents may be evaluated first, in place; children are made and evaluated, separately or in an extended population; the new population
is a new batch (or, where the children replace the parents, the children, which in memory are part of the batch made in this step). -/
def genetic (parents : Option (Evaluated T)) (children : T × T × Evaluated T) (next : Option (T × T)) : List (Act T) :=
  (parents.map fun e => Act.evaluate none e.evs e.best e.worst).toList ++
    [.create children.1 children.2.1, .evaluate (some 0) children.2.2.evs children.2.2.best children.2.2.worst] ++
    (match next with
      | some (v, e) => [.create v e, .adopt 1]
      | none => [.adopt 0])

/-- The items of the status. -/
inductive Item where
  | center | spread | popBest | best | worst
deriving DecidableEq, Repr

/-- A reported value: a tensor, a solution or a list of solutions. -/
inductive Value where
  | tensor (r : Nat)
  | solution (s : Sol)
  | list (l : Nat)
deriving DecidableEq, Repr

/-- What `_get_best_and_worst` reports of one of its lists (core.py 2387-2395): with one objective the solution, otherwise the list. -/
def reportList (m : Nat) (mem : Mem T) (l : Nat) : Option Value :=
  if m = 1 then (((mem.lists[l]?).bind fun xs => xs[0]?).join).map .solution else some (.list l)

/-- Reading an item of the status. The center and the spread are the tensors of the searcher (gaussian.py 421-425, cmaes.py 395-397; the step size of CMA-ES is reported as a number, which cannot
change); the best solution of the population is cloned (searchalgorithm.py 525-527), `row` being its values and evaluations. Simplification: a second read within the same step makes another clone here. -/
def report (m : Nat) (st : S T) (item : Item) (row : T × T) : S T × Option Value :=
  match item with
  | .center => (st, st.center.map .tensor)
  | .spread => (st, st.spread.map .tensor)
  | .popBest => match st.pop with
    | none => (st, none)
    | some _ => let (mem, s) := st.mem.allocSol row.1 row.2; ({ st with mem := mem }, some (.solution s))
  | .best => (st, st.prob.bind fun p => reportList m st.mem p.1)
  | .worst => (st, st.prob.bind fun p => reportList m st.mem p.2)

/-- What the user does: steps (given by their actions) and reads of the status. -/
inductive Event (T : Type) where
  | step (as : List (Act T))
  | read (item : Item) (row : T × T)

/-- One event. -/
def event (m : Nat) (st : S T) : Event T → S T
  | .step as => as.foldl (act m) { st with scratch := [] }
  | .read item row => (report m st item row).1

/-- A history. -/
def run (m : Nat) (st : S T) (es : List (Event T)) : S T := es.foldl (event m) st

/-- A new searcher: its center and spread (if it has them) and the population made by its constructor (if it makes one) are new tensors; the problem has not been used. -/
def new (center spread : Option T) (pop : Option (T × T)) : S T :=
  let st : S T := ⟨⟨[], []⟩, none, none, none, none, []⟩
  let st := match center with | none => st | some t => let (mem, r) := st.mem.alloc t; { st with mem := mem, center := some r }
  let st := match spread with | none => st | some t => let (mem, r) := st.mem.alloc t; { st with mem := mem, spread := some r }
  match pop with | none => st | some (v, e) => let (mem, b) := st.mem.allocSol v e; { st with mem := mem, pop := some b }

/-- What the user sees when looking at a value. -/
inductive Content (T : Type) where
  | tensor (t : Option T)
  | solution (v e : Option T)
  | list (xs : List (Option (Option T × Option T)))
deriving DecidableEq

/-- Looking at a value that was reported, now or earlier. -/
def look (mem : Mem T) : Value → Content T
  | .tensor r => .tensor mem.cells[r]?
  | .solution s => .solution mem.cells[s.vals]? mem.cells[s.evs]?
  | .list l => .list ((mem.lists.getD l []).map fun x => x.map fun s => (mem.cells[s.vals]?, mem.cells[s.evs]?))

end EvoTorch.StatusHistory
