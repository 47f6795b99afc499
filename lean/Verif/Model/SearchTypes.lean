import Mathlib.Data.Nat.Notation
import Mathlib.Algebra.Order.Floor.Ring
import Verif.Model.Base
import Verif.Model.Optimizers
/-!
The dtypes and the devices of the tensors inside the states of the functional searches `cem` and `pgpe` and of the
functional optimizers `sgd`, `adam` and `clipup` (`src/evotorch/algorithms/functional/`): the construction of the initial
states and how the dtypes and devices move through `ask` and `tell`.

A tensor is reduced to its dtype and its device, and to its shape (for the construction) or to whether it has a dimension
inside the decorated functions (for the steps, where `expects_ndim` fixes the number of dimensions of each argument, also
for batches). The entries are not represented, except that an infinite Python number cannot become an integer.
PyTorch's type promotion and its device check are modelled by `promote`, `binary`, `trueDiv` and `withNumber`.
-/
namespace EvoTorch.SearchTypes

/-- The dtypes of PyTorch which this model distinguishes. -/
inductive Dt where
  | f16 | bf16 | f32 | f64 | int64
deriving DecidableEq, Repr

/-- The devices. -/
inductive Dev where
  | cpu
  | cuda (i : ℕ)
deriving DecidableEq, Repr

/-- `torch.promote_types`. -/
def promote : Dt → Dt → Dt
  | .int64, b => b
  | a, .int64 => a
  | .f64, _ => .f64
  | _, .f64 => .f64
  | .f32, _ => .f32
  | _, .f32 => .f32
  | .f16, .f16 => .f16
  | .bf16, .bf16 => .bf16
  | .f16, .bf16 => .f32
  | .bf16, .f16 => .f32

/-- A tensor with its shape. -/
structure Tn where
  dt : Dt
  dev : Dev
  shape : List ℕ
deriving DecidableEq, Repr

/-- A tensor inside a decorated function: whether it has a dimension. -/
structure L where
  dt : Dt
  dev : Dev
  dim : Bool
deriving DecidableEq, Repr

/-- A tensor as the argument of a decorated function which expects it with no dimension. -/
def Tn.scalar (t : Tn) : L := ⟨t.dt, t.dev, false⟩

/-- A tensor as the argument of a decorated function which expects it with one dimension or with two. -/
def Tn.vector (t : Tn) : L := ⟨t.dt, t.dev, true⟩

/-- The device of the result of an element-wise operation: a tensor without dimensions on the cpu goes with everything. -/
def devices (a b : L) : Except PyErr Dev :=
  if a.dev = b.dev then .ok a.dev
  else if a.dim = false ∧ a.dev = .cpu then .ok b.dev
  else if b.dim = false ∧ b.dev = .cpu then .ok a.dev
  else .error .runtimeError

/-- The dtype of the result: a tensor without dimensions counts only when it is of a higher category. -/
def resultType (a b : L) : Dt :=
  if a.dim = b.dim then promote a.dt b.dt
  else if a.dim then (if a.dt = .int64 then promote a.dt b.dt else a.dt)
  else (if b.dt = .int64 then promote a.dt b.dt else b.dt)

/-- An element-wise operation of two tensors (`+`, `-`, `*`, `torch.min`, `torch.max`, `torch.where`). -/
def binary (a b : L) : Except PyErr L := do
  let dev ← devices a b
  return ⟨resultType a b, dev, a.dim || b.dim⟩

/-- Integers become `float32`, the default dtype. -/
def floating (a : L) : L := if a.dt = .int64 then { a with dt := .f32 } else a

/-- `a / b`. -/
def trueDiv (a b : L) : Except PyErr L := do
  let r ← binary a b
  return floating r

/-- `torch.mean` and `torch.std` of all entries or along a dimension: they refuse integers. -/
def mean (a : L) (dim : Bool) : Except PyErr L :=
  if a.dt = .int64 then .error .runtimeError else .ok { a with dim := dim }

/-! ## Initial states -/

/-- An argument given by the user (a number, a sequence, a tensor): its shape, and whether it is an infinite Python number. -/
structure Inp where
  shape : List ℕ
  pyInf : Bool
deriving DecidableEq, Repr

/-- A finite number. -/
def Inp.number : Inp := ⟨[], false⟩
/-- `float("inf")`. -/
def Inp.infinity : Inp := ⟨[], true⟩

/-- `torch.as_tensor(x, dtype=dtype, device=device)` (funcpgpe.py 236-237, funcsgd.py 63-64, funcadam.py 80-81,
funcclipup.py 67-68): an infinite Python number does not fit into an integer. -/
def asTensor (center : Tn) (x : Inp) : Except PyErr Tn :=
  if x.pyInf ∧ center.dt = .int64 then .error .runtimeError else .ok ⟨center.dt, center.dev, x.shape⟩

/-- `as_vector_like_center` (funcpgpe.py 239-250, funccem.py 141-152). -/
def asVectorLikeCenter (center : Tn) (n : ℕ) (x : Inp) : Except PyErr Tn := do
  let t ← asTensor center x
  if t.shape = [] then return { t with shape := [n] }
  else if t.shape.getLast? = some n then return t
  else throw .valueError

/-- `_get_stdev_init` (`algorithms/functional/misc.py 78-163`); `n` is the solution length. The vector of ones of the
radius is made without a dtype and a device (`misc.py 157` there): it is of the default dtype and on the default device. -/
def getStdevInit (center : Tn) (n : ℕ) (stdev radius : Option Inp) : Except PyErr Tn :=
  match stdev, radius with
  | none, none => .error .valueError
  | some s, none => asVectorLikeCenter center n s
  | none, some r => do
      let r ← asTensor center r
      let element : L := ⟨(floating r.scalar).dt, r.dev, true⟩
      let ones : L := ⟨.f32, .cpu, true⟩
      let result ← binary element ones
      return ⟨result.dt, result.dev, r.shape ++ [n]⟩
  | some _, some _ => .error .valueError

/-- `CEMState` (funccem.py 24-31), with tensors of the type `τ`; the parenthood ratio and the sense carry no tensor. -/
structure CEM (τ : Type) where
  center : τ
  stdev : τ
  stdevMin : τ
  stdevMax : τ
  stdevMaxChange : τ
deriving Repr, DecidableEq

/-- The solution length, or the errors of `cem` and of `pgpe` (funccem.py 125-134, funcpgpe.py 220-229). -/
def solutionLength (center : Tn) : Except PyErr ℕ :=
  match center.shape.getLast? with
  | none => .error .valueError
  | some 0 => .error .valueError
  | some n => .ok n

/-- `cem` (funccem.py 34-184). -/
def cem (center : Tn) (stdev radius stdevMin stdevMax stdevMaxChange : Option Inp) : Except PyErr (CEM Tn) := do
  let n ← solutionLength center
  let s ← getStdevInit center n stdev radius
  let lo ← asVectorLikeCenter center n (stdevMin.getD .number)
  let hi ← asVectorLikeCenter center n (stdevMax.getD .infinity)
  let change ← asVectorLikeCenter center n (stdevMaxChange.getD .infinity)
  return ⟨center, s, lo, hi, change⟩

/-- `SGDState`, `AdamState`, `ClipUpState` (funcsgd.py 23-27, funcadam.py 23-31, funcclipup.py 23-28). -/
inductive Opt (τ : Type) where
  | sgd (center velocity rate momentum : τ)
  | adam (center rate beta1 beta2 epsilon m v t : τ)
  | clipup (center velocity rate momentum maxSpeed : τ)
deriving Repr, DecidableEq

/-- `sgd_ask`, `adam_ask`, `clipup_ask` (funcsgd.py 91-101, funcadam.py 126-136, funcclipup.py 111-121). -/
def Opt.center : Opt τ → τ
  | .sgd c _ _ _ => c
  | .adam c _ _ _ _ _ _ _ => c
  | .clipup c _ _ _ _ => c

/-- `sgd` (funcsgd.py 30-75). -/
def sgd (center : Tn) (rate : Inp) (momentum : Option Inp) : Except PyErr (Opt Tn) := do
  let r ← asTensor center rate
  let m ← asTensor center (momentum.getD .number)
  return .sgd center center r m

/-- `adam` (funcadam.py 34-101); the defaults are numbers. -/
def adam (center : Tn) (rate beta1 beta2 epsilon : Inp) : Except PyErr (Opt Tn) := do
  let r ← asTensor center rate
  let b1 ← asTensor center beta1
  let b2 ← asTensor center beta2
  let e ← asTensor center epsilon
  return .adam center r b1 b2 e center center { center with shape := center.shape.dropLast }

/-- The learning rate and the maximum speed of `clipup` (funcclipup.py 70-80): a missing one is computed from the other. -/
def clipupRates (center : Tn) (rate maxSpeed : Option Inp) : Except PyErr (Tn × Tn) :=
  match rate, maxSpeed with
  | none, none => .error .valueError
  | some r, none => (asTensor center r).bind fun r => .ok (r, { r with dt := (floating r.scalar).dt })
  | none, some s => (asTensor center s).bind fun s => .ok ({ s with dt := (floating s.scalar).dt }, s)
  | some r, some s => (asTensor center r).bind fun r => (asTensor center s).bind fun s => .ok (r, s)

/-- `clipup` (funcclipup.py 31-91). -/
def clipup (center : Tn) (momentum : Inp) (rate maxSpeed : Option Inp) : Except PyErr (Opt Tn) := do
  let rs ← clipupRates center rate maxSpeed
  let m ← asTensor center momentum
  return .clipup center center rs.1 m rs.2

/-- The optimizer of `pgpe` with its configuration (funcpgpe.py 278-283; `algorithms/functional/misc.py 30-70`): the center
learning rate is always given. -/
inductive Config where
  | sgd (momentum : Option Inp)
  | adam (beta1 beta2 epsilon : Inp)
  | clipup (momentum : Inp) (maxSpeed : Option Inp)

/-- `optimizer_init_func(center_init=..., center_learning_rate=..., **optimizer_config)` (funcpgpe.py 280-283). -/
def Config.init (cfg : Config) (center : Tn) (rate : Inp) : Except PyErr (Opt Tn) :=
  match cfg with
  | .sgd m => SearchTypes.sgd center rate m
  | .adam b1 b2 e => SearchTypes.adam center rate b1 b2 e
  | .clipup m s => SearchTypes.clipup center m (some rate) s

/-- The ranking methods (`tools/ranking.py` 186). -/
inductive Ranking where
  | centered | linear | nes | normalized | raw
deriving DecidableEq, Repr

/-- `PGPEState` (funcpgpe.py 54-64); the sense is left out. -/
structure PGPE (τ : Type) where
  optimizer : Opt τ
  stdev : τ
  stdevRate : τ
  stdevMin : τ
  stdevMax : τ
  stdevMaxChange : τ
  ranking : Ranking
  symmetric : Bool
deriving Repr, DecidableEq

/-- `pgpe` (funcpgpe.py 67-298). `stdev_max_change` is `0.2` by default and infinite when it is `None`. -/
def pgpe (center : Tn) (rate stdevRate : Inp) (cfg : Config) (ranking : Ranking) (symmetric : Bool)
    (stdev radius stdevMin stdevMax stdevMaxChange : Option Inp) : Except PyErr (PGPE Tn) := do
  let n ← solutionLength center
  let s ← getStdevInit center n stdev radius
  let r ← asTensor center rate
  let sr ← asTensor center stdevRate
  let lo ← asVectorLikeCenter center n (stdevMin.getD .number)
  let hi ← asVectorLikeCenter center n (stdevMax.getD .infinity)
  let change ← asVectorLikeCenter center n (stdevMaxChange.getD .infinity)
  let o ← cfg.init center ⟨r.shape, false⟩
  return ⟨o, s, sr, lo, hi, change, ranking, symmetric⟩

/-- The state as the decorated functions see it: a vector is a vector, whatever batch it came in
(funccem.py 192, funccem.py 197). -/
def CEM.view (s : CEM Tn) : CEM L :=
  ⟨s.center.vector, s.stdev.vector, s.stdevMin.vector, s.stdevMax.vector, s.stdevMaxChange.vector⟩

/-- The optimizer as the decorated steps see it (funcsgd.py 78, funcadam.py 104, funcclipup.py 94). -/
def Opt.view : Opt Tn → Opt L
  | .sgd c v r m => .sgd c.vector v.vector r.scalar m.scalar
  | .adam c r b1 b2 e m v t => .adam c.vector r.scalar b1.scalar b2.scalar e.scalar m.vector v.vector t.scalar
  | .clipup c v r m s => .clipup c.vector v.vector r.scalar m.scalar s.scalar

/-- The state of `pgpe` as the decorated functions see it (funcpgpe.py 321). -/
def PGPE.view (s : PGPE Tn) : PGPE L :=
  ⟨s.optimizer.view, s.stdev.vector, s.stdevRate.scalar, s.stdevMin.vector, s.stdevMax.vector, s.stdevMaxChange.vector,
    s.ranking, s.symmetric⟩

/-! ## Sampling -/

/-- `torch.normal(mean, std)`: of the dtype of the mean, on the device both share; the mean may not be of integers. -/
def normal (mu sigma : L) : Except PyErr L :=
  if mu.dev = sigma.dev then (if mu.dt = .int64 then .error .runtimeError else .ok mu) else .error .runtimeError

/-- `functional_sample` of both distributions (distributions.py 419-425, distributions.py 648-666): the symmetric one draws
around a zero vector like the center and adds the center in place. -/
def sample (symmetric : Bool) (mu sigma : L) : Except PyErr L :=
  if symmetric then do
    let p ← normal mu sigma
    let q ← binary p mu
    return { p with dev := q.dev }
  else normal mu sigma

/-- `cem_ask` (funccem.py 192-194, funccem.py 235-246). -/
def CEM.ask (s : CEM L) : Except PyErr L := sample false s.center s.stdev

/-- `pgpe_ask` (funcpgpe.py 301-318). -/
def PGPE.ask (s : PGPE L) : Except PyErr L := sample s.symmetric s.optimizer.center s.stdev

/-! ## Gradients -/

/-- The dtype of a distribution (distributions.py 93-94; misc.py 422-502, misc.py 505-585): all tensors of its parameters
must agree on the dtype and on the device. -/
def distributionDtype (mu sigma : L) : Except PyErr Dt :=
  if mu.dt ≠ sigma.dt then .error .valueError
  else if mu.dev ≠ sigma.dev then .error .valueError
  else .ok mu.dt

/-- `rank` (ranking.py 24-216): the ranks have the dtype and the device of the fitnesses, except that the utilities of
integers are computed with logarithms. -/
def rank (method : Ranking) (f : L) : Except PyErr L :=
  match method with
  | .centered => .ok f
  | .linear => .ok f
  | .nes => .ok (floating f)
  | .normalized => (mean f false).bind fun _ => .ok f
  | .raw => .ok f

/-- The weights, 0-centered when the ranking method does not do so (distributions.py 287-297, distributions.py 560-561,
distributions.py 720-721). -/
def weights (dt : Dt) (method : Ranking) (evals : L) : Except PyErr L := do
  let w ← rank method { evals with dt := dt }
  if method = .centered ∨ method = .normalized then return w
  else
    let m ← mean w false
    binary w m

/-- `_compute_gradients` of the separable distributions without a parenthood ratio and `_divide_grad` by a number
(distributions.py 515-534, distributions.py 549-577, distributions.py 714-771): the gradients of `mu` and of `sigma`. -/
def gradients (symmetric : Bool) (method : Ranking) (mu sigma values evals : L) : Except PyErr (L × L) := do
  let dt ← distributionDtype mu sigma
  let w ← weights dt method evals
  let noises ← binary values mu
  let w := if symmetric then floating w else w
  let gm ← binary w noises
  let d ← binary noises sigma
  let d ← trueDiv d sigma
  let gs ← binary w d
  return (floating gm, floating gs)

/-- `_compute_gradients_via_parenthood_ratio` (distributions.py 536-544): the elites are picked with indices on the device of
the evaluations, which must be the device of the samples or the cpu. -/
def eliteGradients (mu sigma values evals : L) : Except PyErr (L × L) := do
  let dt ← distributionDtype mu sigma
  let w ← rank .raw { evals with dt := dt }
  if w.dev ≠ values.dev ∧ w.dev ≠ .cpu then throw .runtimeError
  let m ← mean values true
  let gm ← binary m mu
  let gs ← binary m sigma
  return (gm, gs)

/-- `modify_vector` with all of its bounds (misc.py 843-866, misc.py 818-840, misc.py 868-908). -/
def modify (original target lb ub maxChange : L) : Except PyErr L := do
  let diff ← binary original maxChange
  let below ← binary original diff
  let above ← binary original diff
  let r ← binary target below
  let r ← binary r above
  let r ← binary r lb
  binary r ub

/-- `cem_tell` (funccem.py 197-232, funccem.py 249-289). -/
def CEM.tell (s : CEM L) (values evals : L) : Except PyErr (CEM L) := do
  let (gm, gs) ← eliteGradients s.center s.stdev values evals
  let center ← binary s.center gm
  let target ← binary s.stdev gs
  let stdev ← modify s.stdev target s.stdevMin s.stdevMax s.stdevMaxChange
  return { s with center := center, stdev := stdev }

/-- `sgd_tell`, `adam_tell`, `clipup_tell` (funcsgd.py 78-130, funcadam.py 104-172, funcclipup.py 94-151). -/
def Opt.tell (o : Opt L) (g : L) : Except PyErr (Opt L) :=
  match o with
  | .sgd c v r m => do
      let a ← binary m v
      let b ← binary r g
      let v ← binary a b
      let c ← binary c v
      return .sgd c v r m
  | .adam c r b1 b2 e m v t => do
      let m1 ← binary b1 m
      let m2 ← binary b1 g
      let m ← binary m1 m2
      let v1 ← binary b2 v
      let v2 ← binary b2 (floating g)
      let v ← binary v1 v2
      let p1 ← binary b1 t
      let mhat ← trueDiv m p1
      let p2 ← binary b2 t
      let vhat ← trueDiv v p2
      let num ← binary r mhat
      let den ← binary vhat e
      let u ← trueDiv num den
      let c ← binary c u
      return .adam c r b1 b2 e m v t
  | .clipup c v r m s => do
      let norm ← mean g false
      let unit ← trueDiv g norm
      let a ← binary m v
      let b ← binary r unit
      let w ← binary a b
      let wn ← mean w false
      let q ← trueDiv w wn
      let clipped ← binary s q
      let w ← binary clipped w
      let c ← binary c w
      return .clipup c w r m s

/-- `pgpe_tell` (funcpgpe.py 321-327, funcpgpe.py 330-384). -/
def PGPE.tell (s : PGPE L) (values evals : L) : Except PyErr (PGPE L) := do
  let (gm, gs) ← gradients s.symmetric s.ranking s.optimizer.center s.stdev values evals
  let o ← s.optimizer.tell gm
  let step ← binary s.stdevRate gs
  let target ← binary s.stdev step
  let stdev ← modify s.stdev target s.stdevMin s.stdevMax s.stdevMaxChange
  return { s with optimizer := o, stdev := stdev }

/-- A history of `tell`s with populations and evaluations (given by their dtypes and devices). -/
def runCEM (s : CEM L) : List (L × L) → Except PyErr (CEM L)
  | [] => .ok s
  | p :: ps => (s.tell p.1 p.2).bind fun s => runCEM s ps

/-- A history of `tell`s of `pgpe`. -/
def runPGPE (s : PGPE L) : List (L × L) → Except PyErr (PGPE L)
  | [] => .ok s
  | p :: ps => (s.tell p.1 p.2).bind fun s => runPGPE s ps

/-- A history of generations of `cem`: each population is the one `ask` gives, the evaluations are of any dtype. -/
def generationsCEM (s : CEM L) : List L → Except PyErr (CEM L)
  | [] => .ok s
  | e :: es => s.ask.bind fun v => (s.tell v e).bind fun s => generationsCEM s es

/-- A history of generations of `pgpe`. -/
def generationsPGPE (s : PGPE L) : List L → Except PyErr (PGPE L)
  | [] => .ok s
  | e :: es => s.ask.bind fun v => (s.tell v e).bind fun s => generationsPGPE s es

/-! ## Numbers kept in an integer tensor -/

open Classical in
/-- The number which `torch.as_tensor(x, dtype=dtype)` keeps (funcsgd.py 63-64): the fraction is dropped for integers. -/
noncomputable def stored (dt : Dt) (x : ℝ) : ℝ :=
  if dt = .int64 then (if 0 ≤ x then (⌊x⌋ : ℝ) else (⌈x⌉ : ℝ)) else x

/-- `sgd` for a center of a given dtype (funcsgd.py 59-75), with the exact arithmetic of `Optimizers.sgd` otherwise. -/
noncomputable def sgdNumbers (dt : Dt) (center : Fin d → ℝ) (rate : ℝ) (momentum : Option ℝ) : Optimizers.SGDState d :=
  Optimizers.sgd center (stored dt rate) (momentum.map (stored dt))

end EvoTorch.SearchTypes
