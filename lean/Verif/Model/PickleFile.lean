import Mathlib.Data.Nat.Digits.Defs
import Verif.Model.Hook
/-!
What `PicklingLogger.save` writes and where (`src/evotorch/logging.py:110-416`): names of the files, contents of the files, and what remains of them when a save
fails at some point. When saves are made is modelled in `Verif.Model.Logger`.

Strings used as file names are lists of characters. A tensor is its values, whether it is on the cpu, whether it is read-only, and the number of its storage. The
policy maker, the clock and `pickle` are parameters.
-/
namespace EvoTorch.PickleFile
open EvoTorch.Hook (Dict dictGet dictSet)

/-- A tensor: values, device, read-only or not, storage. -/
structure Ten where
  data : List Int
  onCpu : Bool
  readOnly : Bool
  storage : Nat
deriving DecidableEq, Repr

/-- A value in the status dictionary of a search algorithm. `solution v`: a `Solution` whose `values` is `v` (an object-typed solution has values which are not a
tensor). `other`: anything else, by identity. -/
inductive Val where
  | solution (values : Val)
  | tensor (t : Ten)
  | other (o : Nat)
deriving DecidableEq, Repr

/-- `_as_cpu_tensor`, `logging.py:244-253`: cloning a read-only tensor already gives an ordinary tensor (`readonlytensor.py:92-96`), and `as_subclass` removes what
would be left. `fresh`: storage of the clone. -/
def asCpuTensor (fresh : Nat) : Val → Val
  | .solution v => asCpuTensor fresh v
  | .tensor t => .tensor { data := t.data, onCpu := true, readOnly := false, storage := fresh }
  | .other o => .other o

/-- Observation statistics: `runningNorm = true` for `RunningNorm`, else `RunningStat`; device; number of observations. -/
structure Stats where
  runningNorm : Bool
  onCpu : Bool
  count : Nat
  sum : List Int
deriving DecidableEq, Repr

/-- `.to("cpu")`: `runningnorm.py:114-141` (on another device, with no observation yet, `_sum` is `None`, and `None` has no method `to`), `runningstat.py:127-145`. -/
def Stats.toCpu (s : Stats) : Except PyErr Stats :=
  if s.runningNorm = false then .ok s
  else if s.onCpu then .ok s
  else if s.count = 0 then .error .attributeError
  else .ok { s with onCpu := true }

/-- What `to_policy` makes: a module or something else, its device, and its contents. -/
structure Policy where
  isModule : Bool
  onCpu : Bool
  contents : Nat
deriving DecidableEq, Repr

/-- `logging.py:349-352`. -/
def Policy.toCpu (p : Policy) : Policy := if p.isModule && !p.onCpu then { p with onCpu := true } else p

/-- What can be in a pickle file. -/
inductive Item where
  | val (v : Val)
  | stats (s : Stats)
  | policy (p : Policy)
  | time (t : Int)
deriving DecidableEq, Repr

/-- What the logger looks at in the search algorithm and its problem: the status, the step count, when the first step began; `obsNorm`: whether the problem has the
attributes `observation_normalization` and `get_observation_stats`, and with which values; `toPolicy`: the method `to_policy`, if the problem has it. -/
structure Searcher where
  status : Dict String Val
  stepCount : Nat
  firstStep : Option Int
  obsNorm : Option (Bool × Stats)
  toPolicy : Option (Val → Except PyErr Policy)

/-- A file: completely written, or cut short. -/
inductive File where
  | complete (data : Dict String Item)
  | broken
deriving DecidableEq, Repr

abbrev Name := List Char

/-- `str(n)` of a natural number. -/
def decimal (n : Nat) : List Nat := if n = 0 then [0] else (Nat.digits 10 n).reverse

/-- `str.zfill` of a string of digits. -/
def zfill (w : Int) (l : List Nat) : List Nat := List.replicate (w.toNat - l.length) 0 ++ l

def digitChar (d : Nat) : Char := Char.ofNat (48 + d)

/-- `logging.py:366-369`: the generated name. -/
def autoName (pre : Name) (w : Int) (gen : Nat) : Name :=
  pre ++ "_generation".toList ++ (zfill w (decimal gen)).map digitChar ++ ".pickle".toList

/-- `os.path.join(a, b)` on posix. -/
def pathJoin (a b : Name) : Name :=
  if b.head? = some '/' then b
  else if a = [] ∨ a.getLast? = some '/' then a ++ b
  else a ++ '/' :: b

/-- The configuration of a logger, `logging.py:201-233`. -/
structure Cfg where
  items : List String
  makePolicyFrom : Option String
  pre : Name
  directory : Option Name
  zfill : Int
deriving DecidableEq, Repr

/-- The argument `items_to_save`, `logging.py:204-208`: one string, or several. -/
inductive Items where
  | one (s : String)
  | many (l : List String)
deriving DecidableEq, Repr

def Items.toList : Items → List String
  | .one s => [s]
  | .many l => l

/-- `logging.py:213-222`: the prefix; `now` the date and time as text, `prob` the name of the problem's class, `pid` the process. -/
def prefixOf (given : Option Name) (prob now pid : Name) : Name :=
  match given with
  | none => prob ++ '_' :: now ++ '_' :: pid
  | some p => p

/-- `_within_dir`, `logging.py:238-242`. -/
def withinDir (c : Cfg) (n : Name) : Name :=
  match c.directory with
  | none => n
  | some d => pathJoin d n

/-- The state: files by name, `_last_generation`, `_last_file_name`, and the next unused storage. -/
structure World where
  files : Name → Option File
  lastGeneration : Option Nat
  lastFileName : Option Name
  nextStorage : Nat

/-- `logging.py:295-301`. -/
def collectItems (status : Dict String Val) : List String → Nat → Dict String Item → Dict String Item
  | [], _, d => d
  | k :: ks, s, d =>
    match dictGet status k with
    | none => collectItems status ks s d
    | some v => collectItems status ks (s + 1) (dictSet d k (.val (asCpuTensor s v)))

/-- `logging.py:303-310`. -/
def addStats (sr : Searcher) (d : Dict String Item) : Except PyErr (Dict String Item) :=
  match sr.obsNorm with
  | some (true, s) =>
    match s.toCpu with
    | .error e => .error e
    | .ok s' => .ok (dictSet d "obs_stats" (.stats s'))
  | _ => .ok d

/-- `logging.py:316-341`: which status item the policy is made from. -/
def policyKey (c : Cfg) (sr : Searcher) : Except PyErr String :=
  match c.makePolicyFrom with
  | some k => .ok k
  | none =>
    if (dictGet sr.status "center").isSome then .ok "center"
    else if (dictGet sr.status "pop_best").isSome then .ok "pop_best"
    else .error .valueError

/-- `logging.py:357-364`. -/
def addTimes (sr : Searcher) (now : Int) (d : Dict String Item) : Dict String Item :=
  match sr.firstStep with
  | none => d
  | some t => dictSet (dictSet (dictSet d "beginning_time" (.time t)) "now" (.time now)) "elapsed" (.time (now - t))

/-- `logging.py:312-364`. -/
def addPolicy (c : Cfg) (sr : Searcher) (now : Int) (d : Dict String Item) : Except PyErr (Dict String Item) :=
  match sr.toPolicy with
  | none => .ok d
  | some f =>
    match policyKey c sr with
    | .error e => .error e
    | .ok k =>
      match dictGet sr.status k with
      | none => .error .keyError
      | some v =>
        match f v with
        | .error e => .error e
        | .ok p => .ok (addTimes sr now (dictSet d "policy" (.policy p.toCpu)))

/-- `logging.py:294-364`: everything before the file is opened. -/
def prepare (c : Cfg) (sr : Searcher) (now : Int) (w : World) : Except PyErr (Dict String Item) :=
  match addStats sr (collectItems sr.status c.items w.nextStorage []) with
  | .error e => .error e
  | .ok d => addPolicy c sr now d

def setFile (fs : Name → Option File) (n : Name) (f : File) : Name → Option File := fun m => if m = n then some f else fs m

/-- How writing goes: `openFails` (e.g. no such directory; nothing is touched), `dumpFails` (e.g. something cannot be pickled, or the disk is full; opening with
`"wb"` has emptied the file), or it succeeds. -/
inductive Writing where
  | openFails (e : PyErr)
  | dumpFails (e : PyErr)
  | succeeds
deriving DecidableEq, Repr

/-- The name of the file of a save, `logging.py:366-372`. -/
def fileName (c : Cfg) (sr : Searcher) (fname : Option Name) : Name :=
  withinDir c (match fname with
    | some n => n
    | none => autoName c.pre c.zfill sr.stepCount)

/-- `save`, `logging.py:271-391`. `searcher = none`: the weakly referenced search algorithm is gone. -/
def save (c : Cfg) (searcher : Option Searcher) (fname : Option Name) (now : Int) (wr : Writing) (w : World) : Outcome World (Option Name) :=
  match searcher with
  | none => ⟨w, .ok none⟩
  | some sr =>
    match prepare c sr now w with
    | .error e => ⟨w, .error e⟩
    | .ok d =>
      match wr with
      | .openFails e => ⟨w, .error e⟩
      | .dumpFails e => ⟨{ w with files := setFile w.files (fileName c sr fname) .broken }, .error e⟩
      | .succeeds =>
        ⟨{ files := setFile w.files (fileName c sr fname) (.complete d),
           lastGeneration := some sr.stepCount,
           lastFileName := some (fileName c sr fname),
           nextStorage := w.nextStorage + c.items.length },
         .ok (some (fileName c sr fname))⟩

/-- `unpickle_last_file`, `logging.py:409-416`: opening `None` is a `TypeError`; a missing file or one cut short cannot be read. -/
def unpickleLast (w : World) : Except PyErr (Dict String Item) :=
  match w.lastFileName with
  | none => .error .typeError
  | some n =>
    match w.files n with
    | some (.complete d) => .ok d
    | _ => .error .otherError

/-- Saves one after another, each with its own search state, clock and luck. Steps of the search are between them. -/
structure Event where
  searcher : Searcher
  fname : Option Name
  now : Int
  writing : Writing

def runEvents (c : Cfg) : List Event → World → World
  | [], w => w
  | ev :: evs, w => runEvents c evs (save c (some ev.searcher) ev.fname ev.now ev.writing w).state

end EvoTorch.PickleFile
