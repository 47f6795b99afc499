import Verif.Model.CListHistory
import Verif.Model.CDict
import Verif.Model.CBag
/-!
The structures of `src/evotorch/tools/structures.py` with the option `verify`, whose value False leaves out the explicit checks of indices, keys and lengths (for speed, and under `vmap`, where they are impossible).

Simplifications: those of `Verif.Model.CList`, `Verif.Model.CMemory`, `Verif.Model.CDict` and `Verif.Model.CBag`, which are the case `verify=True`.
-/
namespace EvoTorch.Unchecked
open EvoTorch

/-! ### CList -/

section CList
open EvoTorch.CList
open EvoTorch.Spec.Deque (Out)

variable {α : Type} {B : Nat} (verify : Bool) (L : Int)

/-- `_mod_underlying_key` (structures.py 1724-1735); the argument `verify` of the method is not used. -/
def modKey (u : Int) : Int := if verify then modUnderlyingKey L u else u % L

/-- The key translation of `_get_underlying_key` (structures.py 1747-1752). -/
def listKey (r : CList.Ring α) (key : Int) : Int := modKey verify L (if key ≥ 0 then r.beg + key else r.fin + key + 1)

/-- The check of `_get_underlying_key` (structures.py 1754-1762). -/
def listBadKey (c : Batch B α) (key : Fin B → Int) (w : Fin B → Bool) : Bool :=
  verify && anyB fun i => !(isUnderlyingKeyValid L (c i) (listKey verify L (c i) (key i)) || !w i)

/-- Is a position outside of the tensor? -/
def listBadAddress (c : Batch B α) (key : Fin B → Int) : Bool :=
  anyB fun i => (CList.address L (listKey verify L (c i) (key i))).isNone

/-- `get(key)` (structures.py 1781-1783). -/
def listGet (c : Batch B α) (key : Fin B → Int) : Except PyErr (Fin B → α) :=
  if listBadKey verify L c key (fun _ => true) then .error .indexError
  else if listBadAddress verify L c key then .error .indexError
  else .ok fun i => readAt L (c i) (listKey verify L (c i) (key i))

/-- `get(key, default=d)` (structures.py 1784-1787). -/
def listGetDefault (c : Batch B α) (key : Fin B → Int) (d : Fin B → α) : Fin B → α :=
  fun i =>
    let u := listKey verify L (c i) (key i)
    if isUnderlyingKeyValid L (c i) u then readAt L (c i) (u % L) else d i

/-- `_apply_modification_method` (structures.py 1801-1805), as in `CList.modify`. -/
def listModify (c : Batch B α) (key : Fin B → Int) (f : Fin B → α → α) (w : Fin B → Bool) : Outcome (Batch B α) Unit :=
  if listBadKey verify L c key w then ⟨c, .error .indexError⟩
  else if listBadAddress verify L c key then ⟨c, .error .indexError⟩
  else
    ⟨fun i =>
        let u := listKey verify L (c i) (key i)
        let old := readAt L (c i) u
        writeAt L (c i) u (if w i then f i old else old),
      .ok ()⟩

/-- `append_` (structures.py 1907-1909) with `_get_info_for_adding_element` (structures.py 1648-1657). -/
def listAppend (c : Batch B α) (v : Fin B → α) (w : Fin B → Bool) : Outcome (Batch B α) Unit :=
  if verify && anyB (fun i => isFull L (c i) && w i) then ⟨c, .error .indexError⟩
  else listModify verify L (fun i => moveEndForward L (c i) (w i)) (fun _ => -1) (fun i _ => v i) w

/-- `appendleft_` (structures.py 1936-1938). -/
def listAppendLeft (c : Batch B α) (v : Fin B → α) (w : Fin B → Bool) : Outcome (Batch B α) Unit :=
  if verify && anyB (fun i => isFull L (c i) && w i) then ⟨c, .error .indexError⟩
  else listModify verify L (fun i => moveBeginBackward L (c i) (w i)) (fun _ => 0) (fun i _ => v i) w

/-- `pop_` (structures.py 1953-1956) with `_get_info_for_removing_element` (structures.py 1659-1670). -/
def listPop (fallback : α) (c : Batch B α) (w : Fin B → Bool) : Outcome (Batch B α) (Fin B → α) :=
  let result := listGetDefault verify L c (fun _ => -1) (fun _ => fallback)
  if verify && anyB (fun i => isEmpty (c i) && w i) then ⟨c, .error .indexError⟩
  else ⟨fun i => moveEndBackward L (c i) (w i), .ok result⟩

/-- `popleft_` (structures.py 1971-1974). -/
def listPopLeft (fallback : α) (c : Batch B α) (w : Fin B → Bool) : Outcome (Batch B α) (Fin B → α) :=
  let result := listGetDefault verify L c (fun _ => 0) (fun _ => fallback)
  if verify && anyB (fun i => isEmpty (c i) && w i) then ⟨c, .error .indexError⟩
  else ⟨fun i => moveBeginForward L (c i) (w i), .ok result⟩

/-- Dispatch of a call (structures.py 1769-2014). -/
def listExec (fallback : α) (c : Batch B α) : CList.Call B α → Outcome (Batch B α) (Fin B → Out α)
  | .append v w => let o := listAppend verify L c v w; ⟨o.state, o.result.map fun _ _ => .unit⟩
  | .appendLeft v w => let o := listAppendLeft verify L c v w; ⟨o.state, o.result.map fun _ _ => .unit⟩
  | .pop w => let o := listPop verify L fallback c w; ⟨o.state, o.result.map fun f i => .val (f i)⟩
  | .popLeft w => let o := listPopLeft verify L fallback c w; ⟨o.state, o.result.map fun f i => .val (f i)⟩
  | .get k => ⟨c, (listGet verify L c k).map fun f i => .val (f i)⟩
  | .getDefault k d => ⟨c, .ok fun i => .val (listGetDefault verify L c k d i)⟩
  | .set k v w => let o := listModify verify L c k (fun i _ => v i) w; ⟨o.state, o.result.map fun _ _ => .unit⟩
  | .modify k f w => let o := listModify verify L c k f w; ⟨o.state, o.result.map fun _ _ => .unit⟩
  | .length => ⟨c, .ok fun i => .len (CList.length L (c i))⟩
  | .clear => ⟨CList.clear c, .ok fun _ => .unit⟩

/-- A history of calls: what each returned or raised, and the final state. -/
def listRun (fallback : α) : Batch B α → List (CList.Call B α) → List (Except PyErr (Fin B → Out α)) × Batch B α
  | c, [] => ([], c)
  | c, op :: ops =>
    let o := listExec verify L fallback c op
    let r := listRun fallback o.state ops
    (o.result :: r.1, r.2)

end CList

/-! ### CMemory and CDict -/

section CMemory
open EvoTorch.CMemory
open EvoTorch.Spec.Memory (Key)

variable {B d : Nat} {α : Type} (verify : Bool) (cfg : CMemory.Cfg d)

/-- `get` (structures.py 542-553); the check is in `_get_key` (structures.py 460-461). -/
def memGet (m : Mem B d α) (key : Fin B → Key d) : Except PyErr (Fin B → α) :=
  if verify && badKey cfg key (fun _ => true) then .error .keyError
  else if badAddress cfg key then .error .indexError
  else .ok fun i => m i (CMemory.address cfg (key i))

/-- All modification methods (structures.py 555-694), as in `CMemory.modify`. -/
def memModify (m : Mem B d α) (key : Fin B → Key d) (w : Option (Fin B → Bool)) (g : Fin B → α → α) : Outcome (Mem B d α) Unit :=
  if verify && badKey cfg key (w.getD fun _ => true) then ⟨m, .error .keyError⟩
  else if badAddress cfg key then ⟨m, .error .indexError⟩
  else ⟨assign cfg m key g, .ok ()⟩

/-- A call of a method of `CMemory`: reading, or one of the modification methods. -/
inductive MemCall (B d : Nat) (α : Type) where
  | get (key : Fin B → Key d)
  | modify (key : Fin B → Key d) (w : Option (Fin B → Bool)) (g : Fin B → α → α)

/-- A history of calls. A modification returns nothing. -/
def memRun : Mem B d α → List (MemCall B d α) → List (Except PyErr (Option (Fin B → α))) × Mem B d α
  | m, [] => ([], m)
  | m, .get key :: rest =>
    let r := memRun m rest
    ((memGet verify cfg m key).map some :: r.1, r.2)
  | m, .modify key w g :: rest =>
    let o := memModify verify cfg m key w g
    let r := memRun o.state rest
    (o.result.map (fun _ => none) :: r.1, r.2)

/-- A call of a method of `CDict` (structures.py 1207-1366). -/
inductive DictCall (B d : Nat) (α : Type) where
  | get (key : Fin B → Key d)
  | getDefault (key : Fin B → Key d) (dflt : Fin B → α)
  | contains (key : Fin B → Key d)
  | set (key : Fin B → Key d) (v : Fin B → α) (w : Option (Fin B → Bool))
  | modify (key : Fin B → Key d) (w : Option (Fin B → Bool)) (g : Fin B → α → α)
  | clear

/-- What a call of `CDict` returns. -/
inductive DictOut (B : Nat) (α : Type) where
  | nothing
  | values (v : Fin B → α)
  | flags (v : Fin B → Bool)

/-- What `set_` writes (structures.py 571-576). -/
def setValue {β : Type} (v : Fin B → β) (w : Option (Fin B → Bool)) (i : Fin B) (old : β) : β :=
  match w with
  | none => v i
  | some w => doWhere (w i) (v i) old

/-- The methods of `CDict`; both memories have the option (structures.py 1186-1205). -/
def dictExec (c : CDict.Dict B d α) : DictCall B d α → Outcome (CDict.Dict B d α) (DictOut B α)
  | .get key => ⟨c, (memGet verify cfg c.data key).map .values⟩
  | .getDefault key dflt => ⟨c, do
      let exist ← memGet verify cfg c.exist key
      let data ← memGet verify cfg c.data key
      return .values fun i => doWhere (exist i) (data i) (dflt i)⟩
  | .contains key => ⟨c, (memGet verify cfg c.exist key).map .flags⟩
  | .set key v w =>
    let o := memModify verify cfg c.data key w (setValue v w)
    match o.result with
    | .error e => ⟨{ c with data := o.state }, .error e⟩
    | .ok _ =>
      let o' := memModify verify cfg c.exist key w (setValue (fun _ => true) w)
      ⟨{ data := o.state, exist := o'.state }, o'.result.map fun _ => .nothing⟩
  | .modify key w g =>
    let o := memModify verify cfg c.data key w fun i old => doWhere ((w.getD fun _ => true) i) (g i old) old
    ⟨{ c with data := o.state }, o.result.map fun _ => .nothing⟩
  | .clear => ⟨{ c with exist := fun _ _ => false }, .ok .nothing⟩

/-- A history of calls. -/
def dictRun : CDict.Dict B d α → List (DictCall B d α) → List (Except PyErr (DictOut B α)) × CDict.Dict B d α
  | c, [] => ([], c)
  | c, op :: ops =>
    let o := dictExec verify cfg c op
    let r := dictRun o.state ops
    (o.result :: r.1, r.2)

end CMemory

/-! ### CBag -/

section CBag
open EvoTorch.CBag

variable {B : Nat} (verify : Bool) (cfg : CBag.Cfg)

/-- The methods of `CBag` (structures.py 2390-2450); the option goes to the list (structures.py 2361-2368). -/
def bagExec (noise : Fin B → Nat → Int) (b : Bag B) : Spec.Bag.Call B → Outcome (Bag B) (Fin B → Int)
  | .push v w =>
    if b.sampling then ⟨b, .error .runtimeError⟩
    else
      let o := listAppend verify cfg.maxLength b.list v w
      ⟨{ b with list := o.state }, o.result.map fun _ _ => 0⟩
  | .pop w =>
    let b1 : Bag B := if b.sampling then b else ⟨fun i => shuffleRow cfg (noise i) (b.list i), true⟩
    let o := listPop verify cfg.maxLength 0 b1.list w
    ⟨{ b1 with list := o.state }, o.result⟩
  | .length => ⟨b, .ok fun i => CList.length cfg.maxLength (b.list i)⟩
  | .clear => ⟨⟨CList.clear fun i => { b.list i with data := fun _ => cfg.empty }, false⟩, .ok fun _ => 0⟩

/-- A history of calls with the random noise of each. -/
def bagRun : Bag B → List (Spec.Bag.Call B × (Fin B → Nat → Int)) → List (Except PyErr (Fin B → Int)) × Bag B
  | b, [] => ([], b)
  | b, (c, n) :: rest =>
    let o := bagExec verify cfg n b c
    let r := bagRun o.state rest
    (o.result :: r.1, r.2)

end CBag
end EvoTorch.Unchecked
