import Verif.Model.Logger
import Verif.Model.Hook
/-!
What the loggers for scalars report (`src/evotorch/logging.py:419-749`): `ScalarLogger`, `StdOutLogger`, `PandasLogger`, `SacredLogger`, `MlflowLogger`, `NeptuneLogger`
and `WandbLogger`. At which steps they report is in `Verif.Model.Logger`.

The services reported to are the lists of what they received. Status keys are strings (`List Char`, where they are printed).
-/
namespace EvoTorch.Report
open EvoTorch.Hook (Dict dictGet dictSet)
open EvoTorch.Logger (Logger)

abbrev Key := List Char

/-- A value in a status: a string or `bytes`, a number or any object that is not iterable, a tensor or array with its number of dimensions and its place in memory, some
other iterable, a `Solution`. -/
inductive Val where
  | text (s : Key)
  | num (n : Int)
  | array (ndim : Nat) (place : Nat)
  | iterable (n : Nat)
  | solution (n : Nat)
deriving DecidableEq, Repr

abbrev Status := Dict Key Val

/-- `is_sequence`, `misc.py:133-151`. -/
def isSequence : Val → Bool
  | .text _ => false
  | .array n _ => decide (n > 0)
  | .iterable _ => true
  | .num _ => false
  | .solution _ => false

def isSolution : Val → Bool
  | .solution _ => true
  | _ => false

/-- `ScalarLogger._filter`, `logging.py:420-425`. -/
def scalars (st : Status) : Status :=
  st.foldl (fun d kv => if !isSequence kv.2 && !isSolution kv.2 then dictSet d kv.1 kv.2 else d) []

/-- `Logger.__call__`, `logging.py:92-101`, with what `_log` does to the state `σ` behind the logger: it is given the number of calls so far and the filtered status. -/
def callWith {σ : Type} (log : Nat → Status → σ → Outcome σ Unit) (l : Logger) (st : Status) (s : σ) : Outcome (Logger × σ) Unit :=
  let o := Logger.call l
  match o.result with
  | .error e => ⟨(o.state, s), .error e⟩
  | .ok false => ⟨(o.state, s), .ok ()⟩
  | .ok true =>
    let r := log o.state.stepsCount (scalars st) s
    ⟨(o.state, r.state), r.result⟩

/-- The calls made by a search, one after each step, up to the first exception. -/
def feed {σ : Type} (log : Nat → Status → σ → Outcome σ Unit) (l : Logger) (s : σ) : List Status → Outcome (Logger × σ) Unit
  | [] => ⟨(l, s), .ok ()⟩
  | st :: sts =>
    match (callWith log l st s).result with
    | .error e => ⟨(callWith log l st s).state, .error e⟩
    | .ok _ => feed log (callWith log l st s).state.1 (callWith log l st s).state.2 sts

/-! ### `StdOutLogger` -/

/-- `str.rjust`. -/
def rjust (w : Nat) (k : Key) : Key := List.replicate (w - k.length) ' ' ++ k

/-- `print(str(k).rjust(n), ":", v)`, `logging.py:463-465`; `show'`: `str` of a value. -/
def line (show' : Val → Key) (w : Nat) (k : Key) (v : Val) : Key := rjust w k ++ [' ', ':', ' '] ++ show' v

/-- `StdOutLogger._log`, `logging.py:460-474`: the lines printed; `max([])` is a `ValueError`. -/
def stdOut (show' : Val → Key) (leading : List Key) (_ : Nat) (st : Status) (out : List Key) : Outcome (List Key) Unit :=
  if st = [] then ⟨out, .error .valueError⟩
  else
    let w := (st.map fun kv => kv.1.length).foldl max 0
    let first := leading.filterMap fun k => (dictGet st k).map fun v => line show' w k v
    let rest := (st.filter fun kv => !leading.contains kv.1).map fun kv => line show' w kv.1 kv.2
    ⟨out ++ (first ++ rest ++ [[]]), .ok ()⟩

/-! ### `PandasLogger` -/

/-- Memory: contents of arrays by place (one number; those in a filtered status have no dimensions), places in use, places allocated by the logger. -/
structure Mem where
  at_ : Nat → Int
  next : Nat
  owned : List Nat

/-- `deepcopy` of a value in a filtered status: arrays get a place of their own. (An array that occurs twice in a status gets two copies here, one in `deepcopy`.) -/
def copyVal (m : Mem) : Val → Mem × Val
  | .array n p => (⟨fun q => if q = m.next then m.at_ p else m.at_ q, m.next + 1, m.next :: m.owned⟩, .array n m.next)
  | v => (m, v)

def copyStatus (m : Mem) : Status → Mem × Status
  | [] => (m, [])
  | (k, v) :: st => (((copyStatus (copyVal m v).1 st).1), (k, (copyVal m v).2) :: (copyStatus (copyVal m v).1 st).2)

/-- The logger's rows, and memory. -/
structure Pandas where
  mem : Mem
  data : List Status

/-- `PandasLogger._log`, `logging.py:505-506`. -/
def pandas (_ : Nat) (st : Status) (p : Pandas) : Outcome Pandas Unit :=
  ⟨⟨(copyStatus p.mem st).1, p.data ++ [(copyStatus p.mem st).2]⟩, .ok ()⟩

/-- What the search does between two steps: allocate an array, or write to one of its own. -/
inductive Act where
  | alloc (v : Int)
  | write (p : Nat) (v : Int)
deriving DecidableEq, Repr

def act (m : Mem) : Act → Mem
  | .alloc v => ⟨fun q => if q = m.next then v else m.at_ q, m.next + 1, m.owned⟩
  | .write p v => if p ∈ m.owned ∨ m.next ≤ p then m else { m with at_ := fun q => if q = p then v else m.at_ q }

/-- A value as read at some moment. -/
inductive Read where
  | text (s : Key)
  | num (n : Int)
  | obj (v : Val)
deriving DecidableEq, Repr

def read (m : Mem) : Val → Read
  | .text s => .text s
  | .num n => .num n
  | .array _ p => .num (m.at_ p)
  | v => .obj v

def readStatus (m : Mem) (st : Status) : Dict Key Read := st.map fun kv => (kv.1, read m kv.2)

/-- A data frame: its columns in the order of first appearance, and per row the entries (`none`: NaN). -/
structure Frame where
  columns : List Key
  rows : List (List (Option Read))
deriving DecidableEq, Repr

def addColumns (cols : List Key) (r : Dict Key Read) : List Key := r.foldl (fun cs kv => if cs.contains kv.1 then cs else cs ++ [kv.1]) cols

/-- `pandas.DataFrame(list of dictionaries)`. -/
def frame (rows : List (Dict Key Read)) : Frame :=
  let cols := rows.foldl addColumns []
  ⟨cols, rows.map fun r => cols.map fun c => dictGet r c⟩

/-- `to_dataframe`, `logging.py:508-520`: the frame, and the index column if one is asked for; `set_index` raises `KeyError` if there is no such column. The index column
is kept in `columns` here. -/
def toDataframe (p : Pandas) (index : Option Key) : Except PyErr (Frame × Option (List (Option Read))) :=
  let f := frame (p.data.map (readStatus p.mem))
  match index with
  | none => .ok (f, none)
  | some c =>
    if f.columns.contains c then .ok (f, some ((p.data.map (readStatus p.mem)).map fun r => dictGet r c))
    else .error .keyError

/-! ### Services -/

/-- A `sacred` run. -/
structure Sacred where
  logged : List (Key × Val)
  result : Option Val
deriving DecidableEq, Repr

/-- `SacredLogger._log`, `logging.py:564-568`. -/
def sacred (result : Option Key) (_ : Nat) (st : Status) (s : Sacred) : Outcome Sacred Unit :=
  let s1 := { s with logged := s.logged ++ st }
  match result with
  | none => ⟨s1, .ok ()⟩
  | some k =>
    match dictGet st k with
    | none => ⟨s1, .error .keyError⟩
    | some v => ⟨{ s1 with result := some v }, .ok ()⟩

/-- The argument `run` of `MlflowLogger`. -/
inductive RunArg where
  | none
  | run (id : Nat)
  | id (id : Nat)
deriving DecidableEq, Repr

/-- `MlflowLogger.__init__`, `logging.py:613-625`: the run id, if there is a client. -/
def mlflowInit (client : Bool) (run : RunArg) : Except PyErr (Option Nat) :=
  match client, run with
  | false, .none => .ok Option.none
  | false, _ => .error .valueError
  | true, .none => .error .valueError
  | true, .run i => .ok (some i)
  | true, .id i => .ok (some i)

/-- A metric as it arrives: run (`none`: the active run), key, value, step. -/
structure Metric where
  run : Option Nat
  key : Key
  value : Val
  step : Nat
deriving DecidableEq, Repr

/-- `MlflowLogger._log`, `logging.py:627-632`. -/
def mlflow (runId : Option Nat) (steps : Nat) (st : Status) (ms : List Metric) : Outcome (List Metric) Unit :=
  ⟨ms ++ st.map fun kv => ⟨runId, kv.1, kv.2, steps⟩, .ok ()⟩

/-- `logging.py:691`, `logging.py:746`. -/
def targetKey (group : Option Key) (k : Key) : Key :=
  match group with
  | none => k
  | some g => g ++ '/' :: k

/-- `NeptuneLogger._log`, `logging.py:689-692`: a series per key. -/
def neptune (group : Option Key) (_ : Nat) (st : Status) (ser : Key → List Val) : Outcome (Key → List Val) Unit :=
  ⟨st.foldl (fun (s : Key → List Val) kv => fun k => if k = targetKey group kv.1 then s k ++ [kv.2] else s k) ser, .ok ()⟩

/-- `WandbLogger._log`, `logging.py:743-749`. -/
def wandb (group : Option Key) (_ : Nat) (st : Status) (logs : List Status) : Outcome (List Status) Unit :=
  ⟨logs ++ [st.foldl (fun d kv => dictSet d (targetKey group kv.1) kv.2) []], .ok ()⟩

end EvoTorch.Report
