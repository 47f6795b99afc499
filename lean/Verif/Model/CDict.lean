import Verif.Model.CMemory
/-!
Model of `evotorch.tools.structures.CDict` (`src/evotorch/tools/structures.py:1127-1373`), `verify=True`.
-/
namespace EvoTorch.CDict
open EvoTorch.Spec.Memory (Key)
open EvoTorch.CMemory (Cfg Mem)

/-- The two memories `_data` and `_exist` (`structures.py:1186-1205`). Both start uninitialised. -/
structure Dict (B d : Nat) (α : Type) where
  data : Mem B d α
  exist : Mem B d Bool

variable {B d : Nat} {α : Type}

/-- A method call. `modify key g w` stands for `add_`, `subtract_`, `multiply_`, `divide_` (1241-1311), which only act on
`_data`, by a function `g` on selected items. -/
inductive Call (B d : Nat) (α : Type) where
  | set (key : Fin B → Key d) (v : Fin B → α) (w : Option (Fin B → Bool))
  | modify (key : Fin B → Key d) (g : Fin B → α → α) (w : Option (Fin B → Bool))
  | clear

/-- `set_` (`structures.py:1238-1239`), the arithmetic methods (1241-1311, see `CMemory.modify`) and `clear()` without a
mask (1361-1362). If `_data.set_` raises, `_exist` is not touched. -/
def exec (cfg : Cfg d) (c : Dict B d α) : Call B d α → Outcome (Dict B d α) Unit
  | .set key v w =>
    let o := CMemory.set cfg c.data key v w
    match o.result with
    | .error e => ⟨{ c with data := o.state }, .error e⟩
    | .ok _ =>
      let o' := CMemory.set cfg c.exist key (fun _ => true) w
      ⟨{ data := o.state, exist := o'.state }, o'.result⟩
  | .modify key g w =>
    let o := CMemory.modify cfg c.data key w fun i old => CMemory.doWhere ((w.getD fun _ => true) i) (g i old) old
    ⟨{ c with data := o.state }, o.result⟩
  | .clear => ⟨{ c with exist := fun _ _ => false }, .ok ()⟩

/-- `clear(where=...)` (`structures.py:1363-1366`) evaluates `self._exist.shape`; `CMemory` has no such attribute. -/
def clearWhere (c : Dict B d α) (_w : Fin B → Bool) : Outcome (Dict B d α) Unit := ⟨c, .error .attributeError⟩

/-- `get(key)` without default (`structures.py:1219-1220`). -/
def get (cfg : Cfg d) (c : Dict B d α) (key : Fin B → Key d) : Except PyErr (Fin B → α) := CMemory.get cfg c.data key

/-- `get(key, default)` (`structures.py:1222-1224`). -/
def getDefault (cfg : Cfg d) (c : Dict B d α) (key : Fin B → Key d) (dflt : Fin B → α) : Except PyErr (Fin B → α) := do
  let exist ← CMemory.get cfg c.exist key
  let data ← CMemory.get cfg c.data key
  return fun i => CMemory.doWhere (exist i) (data i) (dflt i)

/-- `contains` (`structures.py:1324`). -/
def contains (cfg : Cfg d) (c : Dict B d α) (key : Fin B → Key d) : Except PyErr (Fin B → Bool) :=
  CMemory.get cfg c.exist key

/-- A history of calls; exceptions are caught by the caller. -/
def run (cfg : Cfg d) : Dict B d α → List (Call B d α) → Dict B d α
  | c, [] => c
  | c, op :: ops => run cfg (exec cfg c op).state ops

end EvoTorch.CDict
