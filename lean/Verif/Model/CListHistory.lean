import Verif.Model.CList
import Verif.Spec.Deque
/-!
Histories of public method calls on a `CList` (`src/evotorch/tools/structures.py:1769-2014`).
-/
namespace EvoTorch.CList
open EvoTorch.Spec.Deque (Op Out)

variable {α : Type} {B : Nat}

/-- A method call on a batched list, with per-item arguments and a `where` mask (all-`True` for `where=None`). -/
inductive Call (B : Nat) (α : Type) where
  | append (v : Fin B → α) (w : Fin B → Bool)
  | appendLeft (v : Fin B → α) (w : Fin B → Bool)
  | pop (w : Fin B → Bool)
  | popLeft (w : Fin B → Bool)
  | get (key : Fin B → Int)
  | getDefault (key : Fin B → Int) (d : Fin B → α)
  | set (key : Fin B → Int) (v : Fin B → α) (w : Fin B → Bool)
  | modify (key : Fin B → Int) (f : Fin B → α → α) (w : Fin B → Bool)
  | length
  | clear

/-- Dispatch of a call to the modelled methods (`structures.py:1769-2014`). -/
def exec (L : Int) (fallback : α) (c : Batch B α) : Call B α → Outcome (Batch B α) (Fin B → Out α)
  | .append v w => let o := append L c v w; ⟨o.state, o.result.map fun _ _ => .unit⟩
  | .appendLeft v w => let o := appendLeft L c v w; ⟨o.state, o.result.map fun _ _ => .unit⟩
  | .pop w => let o := pop L fallback c w; ⟨o.state, o.result.map fun f i => .val (f i)⟩
  | .popLeft w => let o := popLeft L fallback c w; ⟨o.state, o.result.map fun f i => .val (f i)⟩
  | .get k => ⟨c, (get L c k).map fun f i => .val (f i)⟩
  | .getDefault k d => ⟨c, .ok fun i => .val (getDefault L c k d i)⟩
  | .set k v w => let o := set L c k v w; ⟨o.state, o.result.map fun _ _ => .unit⟩
  | .modify k f w => let o := modify L c k f w; ⟨o.state, o.result.map fun _ _ => .unit⟩
  | .length => ⟨c, .ok fun i => .len (length L (c i))⟩
  | .clear => ⟨clear c, .ok fun _ => .unit⟩

/-- The operation that a call performs on batch item `i`. -/
def Call.at (i : Fin B) : Call B α → Op α
  | .append v _ => .append (v i)
  | .appendLeft v _ => .appendLeft (v i)
  | .pop _ => .pop
  | .popLeft _ => .popLeft
  | .get k => .get (k i)
  | .getDefault k d => .getDefault (k i) (d i)
  | .set k v _ => .set (k i) (v i)
  | .modify k f _ => .modify (k i) (f i)
  | .length => .length
  | .clear => .clear

/-- Is batch item `i` selected by the call's mask? (`get`, `length` and `clear` address all items.) -/
def Call.selects (i : Fin B) : Call B α → Bool
  | .append _ w | .appendLeft _ w | .pop w | .popLeft w | .set _ _ w | .modify _ _ w => w i
  | .get _ | .getDefault _ _ | .length | .clear => true

/-- Run a history, collecting what each call returned or raised. A raised exception does not stop the history (the caller
may catch it). -/
def run (L : Int) (fallback : α) : Batch B α → List (Call B α) → List (Except PyErr (Fin B → Out α))
  | _, [] => []
  | c, op :: ops => (exec L fallback c op).result :: run L fallback (exec L fallback c op).state ops

/-- The state after a history. -/
def runState (L : Int) (fallback : α) : Batch B α → List (Call B α) → Batch B α
  | c, [] => c
  | c, op :: ops => runState L fallback (exec L fallback c op).state ops

/-- The unbatched list's methods take plain arguments and no mask: item `0` of a batch of size one. -/
def single : Op α → Call 1 α
  | .append x => .append (fun _ => x) (fun _ => true)
  | .appendLeft x => .appendLeft (fun _ => x) (fun _ => true)
  | .pop => .pop (fun _ => true)
  | .popLeft => .popLeft (fun _ => true)
  | .get k => .get (fun _ => k)
  | .getDefault k d => .getDefault (fun _ => k) (fun _ => d)
  | .set k x => .set (fun _ => k) (fun _ => x) (fun _ => true)
  | .modify k f => .modify (fun _ => k) (fun _ => f) (fun _ => true)
  | .length => .length
  | .clear => .clear

end EvoTorch.CList
