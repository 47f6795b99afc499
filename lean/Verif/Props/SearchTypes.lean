import Verif.Spec.SearchTypes
import Mathlib.Tactic.Common
import Mathlib.Tactic.Linarith
import Mathlib.Tactic.NormNum
/-! Dtypes and devices of the functional searches (C165). -/
namespace EvoTorch.SearchTypes

/-- A vector of dtype `d` on `dev`. -/
abbrev vec (d : Dt) (dev : Dev) : L := ⟨d, dev, true⟩
/-- A number of dtype `d` on `dev`. -/
abbrev num (d : Dt) (dev : Dev) : L := ⟨d, dev, false⟩

theorem binary_vec (a b : Dt) (dev : Dev) : binary (vec a dev) (vec b dev) = .ok (vec (promote a b) dev) := by
  simp [binary, devices, resultType, bind, Except.bind, pure, Except.pure]

theorem binary_num_vec (a : Dt) {b : Dt} (dev : Dev) (h : b ≠ .int64) :
    binary (num a dev) (vec b dev) = .ok (vec b dev) := by
  simp [binary, devices, resultType, bind, Except.bind, pure, Except.pure, h]

theorem binary_vec_num {a : Dt} (b : Dt) (dev : Dev) (h : a ≠ .int64) :
    binary (vec a dev) (num b dev) = .ok (vec a dev) := by
  simp [binary, devices, resultType, bind, Except.bind, pure, Except.pure, h]

theorem binary_num (a b : Dt) (dev : Dev) : binary (num a dev) (num b dev) = .ok (num (promote a b) dev) := by
  simp [binary, devices, resultType, bind, Except.bind, pure, Except.pure]

theorem floating_of {a : L} (h : a.dt ≠ .int64) : floating a = a := by simp [floating, h]

theorem trueDiv_vec {a b : Dt} (dev : Dev) (h : promote a b ≠ .int64) :
    trueDiv (vec a dev) (vec b dev) = .ok (vec (promote a b) dev) := by
  simp [trueDiv, binary_vec, bind, Except.bind, pure, Except.pure, floating, h]

theorem trueDiv_vec_num {a : Dt} (b : Dt) (dev : Dev) (h : a ≠ .int64) :
    trueDiv (vec a dev) (num b dev) = .ok (vec a dev) := by
  simp [trueDiv, binary_vec_num b dev h, bind, Except.bind, pure, Except.pure, floating, h]

theorem mean_of {a : Dt} (dev : Dev) (x dim : Bool) (h : a ≠ .int64) : mean ⟨a, dev, x⟩ dim = .ok ⟨a, dev, dim⟩ := by
  simp [mean, h]

theorem promote_comm (a b : Dt) : promote a b = promote b a := by cases a <;> cases b <;> rfl
theorem promote_assoc (a b c : Dt) : promote (promote a b) c = promote a (promote b c) := by
  cases a <;> cases b <;> cases c <;> rfl
theorem promote_self (a : Dt) : promote a a = a := by cases a <;> rfl
theorem promote_float {a b : Dt} (h : a ≠ .int64) : promote a b ≠ .int64 := by
  revert h; cases a <;> cases b <;> simp [promote]
theorem promote_left (a b : Dt) : promote a (promote a b) = promote a b := by rw [← promote_assoc, promote_self]

theorem modify_vec (o t lb ub mc : Dt) (dev : Dev) :
    modify (vec o dev) (vec t dev) (vec lb dev) (vec ub dev) (vec mc dev)
      = .ok (vec (promote (promote (promote (promote t (promote o (promote o mc))) (promote o (promote o mc))) lb) ub) dev) := by
  simp [modify, binary_vec, bind, Except.bind]

/-- One `tell` of `cem`. -/
theorem cem_tell (d d0 e f : Dt) (dev fdev : Dev) (x : Bool) (hd : d ≠ .int64) (he : e ≠ .int64)
    (h0 : promote d d0 = d) (hf : fdev = dev ∨ fdev = .cpu) :
    CEM.tell ⟨vec d dev, vec d dev, vec d0 dev, vec d0 dev, vec d0 dev⟩ (vec e dev) ⟨f, fdev, x⟩
      = .ok ⟨vec (promote d e) dev, vec (promote d e) dev, vec d0 dev, vec d0 dev, vec d0 dev⟩ := by
  have hdev : ¬ (fdev ≠ dev ∧ fdev ≠ .cpu) := by rcases hf with h | h <;> simp [h]
  simp only [CEM.tell, eliteGradients, distributionDtype, rank, bind, Except.bind, pure, Except.pure,
    ne_eq, not_true, if_false, hdev, mean_of dev true true he, binary_vec, modify_vec]
  have h1 : promote d (promote e d) = promote d e := by rw [promote_comm e d, promote_left]
  rw [h1]
  have h2 : promote (promote (promote (promote (promote d e) (promote d (promote d d0))) (promote d (promote d d0))) d0) d0
      = promote d e := by
    revert h0; cases d <;> cases d0 <;> cases e <;> simp_all [promote]
  rw [h2]

/-- How an optimizer looks between the steps: its vectors are of dtype `d`, its numbers of dtype `d0`. -/
inductive OptLike (d d0 : Dt) (dev : Dev) : Opt L → Prop
  | sgd : OptLike d d0 dev (.sgd (vec d dev) (vec d dev) (num d0 dev) (num d0 dev))
  | adam : OptLike d d0 dev (.adam (vec d dev) (num d0 dev) (num d0 dev) (num d0 dev) (num d0 dev) (vec d dev) (vec d dev)
      (num d0 dev))
  | clipup : OptLike d d0 dev (.clipup (vec d dev) (vec d dev) (num d0 dev) (num d0 dev) (num d0 dev))

theorem OptLike.center {d d0 : Dt} {dev : Dev} {o : Opt L} (h : OptLike d d0 dev o) : o.center = vec d dev := by
  cases h <;> rfl

theorem OptLike.all {d : Dt} {dev : Dev} {o : Opt L} (h : OptLike d d dev o) :
    ∀ t ∈ o.tensors, t.dt = d ∧ t.dev = dev := by
  cases h <;> simp [Opt.tensors]

/-- One step of an optimizer with a gradient of a dtype which holds the dtype of the vectors. -/
theorem opt_tell {d d0 g : Dt} {dev : Dev} {o : Opt L} (h : OptLike d d0 dev o) (hd : d ≠ .int64) (hg : promote d g = g) :
    ∃ o', o.tell (vec g dev) = .ok o' ∧ OptLike g d0 dev o' := by
  have hg0 : g ≠ .int64 := by rw [← hg]; exact promote_float hd
  have hgg : promote g g = g := promote_self g
  cases h with
  | sgd =>
    refine ⟨.sgd (vec g dev) (vec g dev) (num d0 dev) (num d0 dev), ?_, .sgd⟩
    simp [Opt.tell, bind, Except.bind, pure, Except.pure, binary_num_vec _ _ hd, binary_num_vec _ _ hg0, binary_vec, hg]
  | adam =>
    refine ⟨.adam (vec g dev) (num d0 dev) (num d0 dev) (num d0 dev) (num d0 dev) (vec g dev) (vec g dev) (num d0 dev), ?_,
      .adam⟩
    have hfl : floating (vec g dev) = vec g dev := floating_of hg0
    have hdiv : trueDiv (vec g dev) (vec g dev) = .ok (vec g dev) := by
      have := trueDiv_vec (a := g) (b := g) dev (by rw [hgg]; exact hg0)
      rwa [hgg] at this
    simp [Opt.tell, bind, Except.bind, pure, Except.pure, binary_num_vec _ _ hd, binary_num_vec _ _ hg0, binary_vec, hg,
      binary_num, trueDiv_vec_num _ _ hg0, hfl, binary_vec_num _ _ hg0, promote_self, hdiv]
  | clipup =>
    refine ⟨.clipup (vec g dev) (vec g dev) (num d0 dev) (num d0 dev) (num d0 dev), ?_, .clipup⟩
    simp [Opt.tell, bind, Except.bind, pure, Except.pure, binary_num_vec _ _ hd, binary_num_vec _ _ hg0, binary_vec, hg,
      mean_of dev true false hg0, trueDiv_vec_num _ _ hg0, promote_self]

theorem weights_of {d f : Dt} {dev : Dev} (method : Ranking) (hd : d ≠ .int64) :
    weights d method (vec f dev) = .ok (vec d dev) := by
  have hb := binary_vec_num (a := d) d dev hd
  cases method <;>
    simp [weights, rank, mean_of dev true false hd, bind, Except.bind, pure, Except.pure, floating, hd, hb]

theorem gradients_of {d e f : Dt} {dev : Dev} (symmetric : Bool) (method : Ranking) (hd : d ≠ .int64) :
    gradients symmetric method (vec d dev) (vec d dev) (vec e dev) (vec f dev)
      = .ok (vec (promote d e) dev, vec (promote d e) dev) := by
  have h1 : promote e d = promote d e := promote_comm e d
  have h2 : promote (promote d e) d = promote d e := by rw [promote_comm (promote d e) d, promote_left]
  have h3 : promote (promote d e) d ≠ .int64 := by rw [h2]; exact promote_float hd
  have h4 : promote d e ≠ .int64 := promote_float hd
  cases symmetric <;>
    simp [gradients, distributionDtype, weights_of method hd, bind, Except.bind, pure, Except.pure, binary_vec, h1,
      trueDiv_vec dev h3, h2, promote_left, floating, hd, h4]

/-- How a state of `pgpe` looks between the steps. -/
structure Like (d d0 : Dt) (dev : Dev) (s : PGPE L) : Prop where
  opt : OptLike d d0 dev s.optimizer
  stdev : s.stdev = vec d dev
  rate : s.stdevRate = num d0 dev
  lo : s.stdevMin = vec d0 dev
  hi : s.stdevMax = vec d0 dev
  change : s.stdevMaxChange = vec d0 dev

/-- One `tell` of `pgpe`. -/
theorem pgpe_tell {d d0 e f : Dt} {dev : Dev} {s : PGPE L} (h : Like d d0 dev s) (hd : d ≠ .int64)
    (h0 : promote d d0 = d) :
    ∃ s', s.tell (vec e dev) (vec f dev) = .ok s' ∧ Like (promote d e) d0 dev s'
      ∧ s'.ranking = s.ranking ∧ s'.symmetric = s.symmetric := by
  obtain ⟨o, ho, hl⟩ := opt_tell h.opt hd (promote_left d e)
  have h4 : promote d e ≠ .int64 := promote_float hd
  have h2 : promote (promote (promote (promote (promote d e) (promote d d0)) (promote d d0)) d0) d0
      = promote d e := by
    revert h0; cases d <;> cases d0 <;> cases e <;> simp_all [promote]
  refine ⟨{ s with optimizer := o, stdev := vec (promote d e) dev }, ?_, ⟨hl, rfl, h.rate, h.lo, h.hi, h.change⟩, rfl, rfl⟩
  simp only [PGPE.tell, h.opt.center, h.stdev, h.rate, h.lo, h.hi, h.change, gradients_of s.symmetric s.ranking hd, bind,
    Except.bind, pure, Except.pure, ho, binary_num_vec d0 dev h4, binary_vec, promote_left, modify_vec, h2]

/-! ## The initial states -/

theorem asTensor_ok {center : Tn} {x : Inp} {t : Tn} (h : asTensor center x = .ok t) :
    t = ⟨center.dt, center.dev, x.shape⟩ := by
  unfold asTensor at h; split at h <;> simp_all

theorem asVector_ok {center : Tn} {n : ℕ} {x : Inp} {t : Tn} (h : asVectorLikeCenter center n x = .ok t) :
    t.dt = center.dt ∧ t.dev = center.dev ∧ t.shape.getLast? = some n := by
  simp only [asVectorLikeCenter, bind, Except.bind, pure, Except.pure] at h
  cases hx : asTensor center x with
  | error e => simp [hx] at h
  | ok u =>
    have := asTensor_ok hx
    simp only [hx] at h
    split at h
    · injection h with h; subst h; simp [this]
    · split at h
      · injection h with h; subst h; simp_all
      · simp [throw, throwThe, MonadExceptOf.throw] at h

theorem bind_ok {α β : Type} {x : Except PyErr α} {f : α → Except PyErr β} {y : β} (h : x.bind f = .ok y) :
    ∃ a, x = .ok a ∧ f a = .ok y := by
  cases x with
  | error e => simp [Except.bind] at h
  | ok a => exact ⟨a, rfl, h⟩

theorem length_ok {center : Tn} {n : ℕ} (h : solutionLength center = .ok n) : center.shape.getLast? = some n := by
  unfold solutionLength at h
  cases hc : center.shape.getLast? with
  | none => simp [hc] at h
  | some k =>
    cases k with
    | zero => simp [hc] at h
    | succ k => simp [hc] at h; simp [h]

/-- C165: a state which `cem` makes from a center and a standard deviation keeps the given center, and all of its tensors have
the dtype, the device and the solution length of the center, whatever dtypes and devices the other arguments came with. -/
theorem C165_cem_initial (center : Tn) (stdev : Inp) (lo hi change : Option Inp) (st : CEM Tn)
    (h : cem center (some stdev) none lo hi change = .ok st) :
    st.center = center ∧ ∀ t ∈ st.tensors,
      t.dt = center.dt ∧ t.dev = center.dev ∧ t.shape.getLast? = center.shape.getLast? := by
  obtain ⟨n, hn, h⟩ := bind_ok h
  obtain ⟨s, hs, h⟩ := bind_ok h
  obtain ⟨l, hl, h⟩ := bind_ok h
  obtain ⟨u, hu, h⟩ := bind_ok h
  obtain ⟨c, hc, h⟩ := bind_ok h
  cases h
  have hn := length_ok hn
  refine ⟨rfl, ?_⟩
  simp only [CEM.tensors, List.forall_mem_cons, hn]
  exact ⟨⟨trivial, trivial, trivial⟩, asVector_ok hs, asVector_ok hl, asVector_ok hu, asVector_ok hc, by simp⟩

theorem sgd_ok {center : Tn} {rate : Inp} {m : Option Inp} {o : Opt Tn} (h : sgd center rate m = .ok o) :
    o.center = center ∧ (∀ t ∈ o.tensors, t.dt = center.dt ∧ t.dev = center.dev)
      ∧ OptLike center.dt center.dt center.dev o.view := by
  obtain ⟨r, hr, h⟩ := bind_ok h
  obtain ⟨m', hm, h⟩ := bind_ok h
  cases h
  have hr := asTensor_ok hr
  have hm := asTensor_ok hm
  subst hr; subst hm
  exact ⟨rfl, by simp [Opt.tensors], .sgd⟩

theorem adam_ok {center : Tn} {rate b1 b2 e : Inp} {o : Opt Tn} (h : adam center rate b1 b2 e = .ok o) :
    o.center = center ∧ (∀ t ∈ o.tensors, t.dt = center.dt ∧ t.dev = center.dev)
      ∧ OptLike center.dt center.dt center.dev o.view := by
  obtain ⟨r, hr, h⟩ := bind_ok h
  obtain ⟨x, hx, h⟩ := bind_ok h
  obtain ⟨y, hy, h⟩ := bind_ok h
  obtain ⟨z, hz, h⟩ := bind_ok h
  cases h
  have hr := asTensor_ok hr
  have hx := asTensor_ok hx
  have hy := asTensor_ok hy
  have hz := asTensor_ok hz
  subst hr; subst hx; subst hy; subst hz
  exact ⟨rfl, by simp [Opt.tensors], .adam⟩

theorem clipup_ok {center : Tn} {m : Inp} {rate speed : Option Inp} {o : Opt Tn} (hd : center.dt ≠ .int64)
    (h : clipup center m rate speed = .ok o) :
    o.center = center ∧ (∀ t ∈ o.tensors, t.dt = center.dt ∧ t.dev = center.dev)
      ∧ OptLike center.dt center.dt center.dev o.view := by
  obtain ⟨⟨r, s⟩, hrs, h⟩ := bind_ok h
  obtain ⟨m', hm, h⟩ := bind_ok h
  cases h
  have hm := asTensor_ok hm
  subst hm
  have key : r.dt = center.dt ∧ r.dev = center.dev ∧ s.dt = center.dt ∧ s.dev = center.dev := by
    cases rate <;> cases speed
    · simp [clipupRates] at hrs
    · obtain ⟨x, hx, hrs⟩ := bind_ok hrs
      cases hrs
      have hx := asTensor_ok hx
      subst hx
      simp [floating, Tn.scalar, hd]
    · obtain ⟨x, hx, hrs⟩ := bind_ok hrs
      cases hrs
      have hx := asTensor_ok hx
      subst hx
      simp [floating, Tn.scalar, hd]
    · obtain ⟨x, hx, hrs⟩ := bind_ok hrs
      obtain ⟨y, hy, hrs⟩ := bind_ok hrs
      cases hrs
      have hx := asTensor_ok hx
      have hy := asTensor_ok hy
      subst hx; subst hy
      simp
  obtain ⟨k1, k2, k3, k4⟩ := key
  refine ⟨rfl, by simp [Opt.tensors, k1, k2, k3, k4], ?_⟩
  simp only [Opt.view, Tn.vector, Tn.scalar, k1, k2, k3, k4]
  exact .clipup

theorem init_ok {cfg : Config} {center : Tn} {rate : Inp} {o : Opt Tn} (hd : center.dt ≠ .int64)
    (h : cfg.init center rate = .ok o) :
    o.center = center ∧ (∀ t ∈ o.tensors, t.dt = center.dt ∧ t.dev = center.dev)
      ∧ OptLike center.dt center.dt center.dev o.view := by
  cases cfg with
  | sgd m => exact sgd_ok h
  | adam b1 b2 e => exact adam_ok h
  | clipup m s => exact clipup_ok hd h

/-- C165: the same for `pgpe` with any of the three optimizers and a center of floating point numbers. -/
theorem C165_pgpe_initial (center : Tn) (hd : center.dt ≠ .int64) (rate stdevRate stdev : Inp) (cfg : Config)
    (ranking : Ranking) (symmetric : Bool) (lo hi change : Option Inp) (st : PGPE Tn)
    (h : pgpe center rate stdevRate cfg ranking symmetric (some stdev) none lo hi change = .ok st) :
    st.optimizer.center = center ∧ (∀ t ∈ st.tensors, t.dt = center.dt ∧ t.dev = center.dev)
      ∧ ∀ t ∈ [st.stdev, st.stdevMin, st.stdevMax, st.stdevMaxChange],
          t.shape.getLast? = center.shape.getLast? := by
  obtain ⟨n, hn, h⟩ := bind_ok h
  obtain ⟨s, hs, h⟩ := bind_ok h
  obtain ⟨r, hr, h⟩ := bind_ok h
  obtain ⟨sr, hsr, h⟩ := bind_ok h
  obtain ⟨l, hl, h⟩ := bind_ok h
  obtain ⟨u, hu, h⟩ := bind_ok h
  obtain ⟨c, hc, h⟩ := bind_ok h
  obtain ⟨o, ho, h⟩ := bind_ok h
  cases h
  have hn := length_ok hn
  obtain ⟨ho1, ho2, _⟩ := init_ok hd ho
  have hsr := asTensor_ok hsr
  have hs := asVector_ok hs
  have hl := asVector_ok hl
  have hu := asVector_ok hu
  have hc := asVector_ok hc
  refine ⟨ho1, ?_, ?_⟩
  · intro t ht
    simp only [PGPE.tensors, List.mem_append, List.mem_cons, List.not_mem_nil, or_false] at ht
    rcases ht with ht | rfl | rfl | rfl | rfl | rfl
    · exact ho2 t ht
    · exact ⟨hs.1, hs.2.1⟩
    · rw [hsr]; exact ⟨rfl, rfl⟩
    · exact ⟨hl.1, hl.2.1⟩
    · exact ⟨hu.1, hu.2.1⟩
    · exact ⟨hc.1, hc.2.1⟩
  · simp only [List.forall_mem_cons, hn]
    exact ⟨hs.2.2, hl.2.2, hu.2.2, hc.2.2, by simp⟩

/-- An argument which goes with a solution length: a number, or a tensor whose last dimension has this length. -/
def Inp.Goes (n : ℕ) (x : Inp) : Prop := x.shape = [] ∨ x.shape.getLast? = some n

theorem asVector_goes {center : Tn} {n : ℕ} {x : Inp} (hd : center.dt ≠ .int64) (hx : x.Goes n) :
    ∃ t, asVectorLikeCenter center n x = .ok t := by
  have h1 : asTensor center x = .ok ⟨center.dt, center.dev, x.shape⟩ := by simp [asTensor, hd]
  by_cases h : x.shape = []
  · exact ⟨⟨center.dt, center.dev, [n]⟩, by simp [asVectorLikeCenter, h1, h, bind, Except.bind, pure, Except.pure]⟩
  · have h2 := hx.resolve_left h
    exact ⟨⟨center.dt, center.dev, x.shape⟩, by simp [asVectorLikeCenter, h1, h, h2, bind, Except.bind, pure, Except.pure]⟩

theorem goes_default {n : ℕ} {x : Option Inp} {y : Inp} (hy : y.shape = []) (hx : ∀ z ∈ x, z.Goes n) :
    (x.getD y).Goes n := by
  cases x with
  | none => exact Or.inl hy
  | some z => exact hx z rfl

/-- C165: for a center of floating point numbers and a standard deviation, `cem` makes a state whenever every vector-like
argument is a number or ends with the solution length. -/
theorem C165_cem_accepts (center : Tn) (n : ℕ) (hd : center.dt ≠ .int64) (hn : center.shape.getLast? = some n) (hpos : 0 < n)
    (stdev : Inp) (lo hi change : Option Inp) (hs : stdev.Goes n) (hlo : ∀ z ∈ lo, z.Goes n) (hhi : ∀ z ∈ hi, z.Goes n)
    (hch : ∀ z ∈ change, z.Goes n) :
    ∃ st, cem center (some stdev) none lo hi change = .ok st := by
  have h0 : solutionLength center = .ok n := by
    obtain ⟨k, rfl⟩ : ∃ k, n = k + 1 := ⟨n - 1, by omega⟩
    simp [solutionLength, hn]
  obtain ⟨s, hs⟩ := asVector_goes hd hs
  obtain ⟨l, hl⟩ := asVector_goes hd (goes_default (y := .number) rfl hlo)
  obtain ⟨u, hu⟩ := asVector_goes hd (goes_default (y := .infinity) rfl hhi)
  obtain ⟨c, hc⟩ := asVector_goes hd (goes_default (y := .infinity) rfl hch)
  exact ⟨⟨center, s, l, u, c⟩, by simp [cem, h0, getStdevInit, hs, hl, hu, hc, bind, Except.bind, pure, Except.pure]⟩

theorem asTensor_float {center : Tn} (x : Inp) (hd : center.dt ≠ .int64) :
    asTensor center x = .ok ⟨center.dt, center.dev, x.shape⟩ := by simp [asTensor, hd]

theorem init_accepts (cfg : Config) (center : Tn) (rate : Inp) (hd : center.dt ≠ .int64) :
    ∃ o, cfg.init center rate = .ok o := by
  cases cfg with
  | sgd m => simp [Config.init, sgd, asTensor_float _ hd, bind, Except.bind, pure, Except.pure]
  | adam b1 b2 e => simp [Config.init, adam, asTensor_float _ hd, bind, Except.bind, pure, Except.pure]
  | clipup m s => cases s <;> simp [Config.init, clipup, clipupRates, asTensor_float _ hd, bind, Except.bind, pure, Except.pure]

/-- C165: so does `pgpe`. -/
theorem C165_pgpe_accepts (center : Tn) (n : ℕ) (hd : center.dt ≠ .int64) (hn : center.shape.getLast? = some n) (hpos : 0 < n)
    (rate stdevRate stdev : Inp) (cfg : Config) (ranking : Ranking) (symmetric : Bool) (lo hi change : Option Inp)
    (hs : stdev.Goes n) (hlo : ∀ z ∈ lo, z.Goes n) (hhi : ∀ z ∈ hi, z.Goes n) (hch : ∀ z ∈ change, z.Goes n) :
    ∃ st, pgpe center rate stdevRate cfg ranking symmetric (some stdev) none lo hi change = .ok st := by
  have h0 : solutionLength center = .ok n := by
    obtain ⟨k, rfl⟩ : ∃ k, n = k + 1 := ⟨n - 1, by omega⟩
    simp [solutionLength, hn]
  obtain ⟨s, hs⟩ := asVector_goes hd hs
  obtain ⟨l, hl⟩ := asVector_goes hd (goes_default (y := .number) rfl hlo)
  obtain ⟨u, hu⟩ := asVector_goes hd (goes_default (y := .infinity) rfl hhi)
  obtain ⟨c, hc⟩ := asVector_goes hd (goes_default (y := .infinity) rfl hch)
  obtain ⟨o, ho⟩ := init_accepts cfg center ⟨rate.shape, false⟩ hd
  exact ⟨⟨o, s, ⟨center.dt, center.dev, stdevRate.shape⟩, l, u, c, ranking, symmetric⟩,
    by simp [pgpe, h0, getStdevInit, hs, hl, hu, hc, ho, asTensor_float _ hd, bind, Except.bind, pure, Except.pure]⟩

/-- The hypotheses are met: a half precision batch of centers on a CUDA device, with a standard deviation. -/
example : ∃ st, cem ⟨.f16, .cuda 0, [4, 3]⟩ (some .number) none none (some ⟨[3], false⟩) none = .ok st :=
  C165_cem_accepts _ 3 (by decide) rfl (by decide) _ _ _ _ (Or.inl rfl) (by simp) (by simp [Inp.Goes]) (by simp)

/-! ## Histories -/

/-- The dtypes of the populations of a history. -/
def told (ps : List (L × L)) : List Dt := ps.map fun p => p.1.dt

theorem runCEM_like {d0 : Dt} {dev : Dev} : ∀ (ps : List (L × L)) (d : Dt), d ≠ .int64 → promote d d0 = d →
    (∀ p ∈ ps, p.1.dt ≠ .int64 ∧ p.1.dev = dev ∧ p.1.dim = true ∧ (p.2.dev = dev ∨ p.2.dev = .cpu)) →
    runCEM ⟨vec d dev, vec d dev, vec d0 dev, vec d0 dev, vec d0 dev⟩ ps
      = .ok ⟨vec ((told ps).foldl promote d) dev, vec ((told ps).foldl promote d) dev, vec d0 dev, vec d0 dev, vec d0 dev⟩
  | [], _, _, _, _ => rfl
  | ⟨⟨e, edev, ed⟩, ⟨f, fdev, x⟩⟩ :: ps, d, hd, h0, h => by
    obtain ⟨h1, h2, h3, h4⟩ := h _ (List.mem_cons_self ..)
    simp only at h1 h2 h3 h4
    subst h2; subst h3
    have := cem_tell d d0 e f edev fdev x hd h1 h0 h4
    simp only [runCEM, this, Except.bind]
    have hpd : promote (promote d e) d0 = promote d e := by
      rw [promote_comm d e, promote_assoc, h0]
    rw [runCEM_like ps (promote d e) (promote_float hd) hpd (fun p hp => h p (List.mem_cons_of_mem _ hp))]
    rfl

theorem runPGPE_like {d0 : Dt} {dev : Dev} : ∀ (ps : List (L × L)) (d : Dt) (s : PGPE L), d ≠ .int64 → promote d d0 = d →
    (∀ p ∈ ps, p.1.dev = dev ∧ p.1.dim = true ∧ p.2.dev = dev ∧ p.2.dim = true) → Like d d0 dev s →
    ∃ s', runPGPE s ps = .ok s' ∧ Like ((told ps).foldl promote d) d0 dev s'
  | [], _, s, _, _, _, hl => ⟨s, rfl, hl⟩
  | ⟨⟨e, edev, ed⟩, ⟨f, fdev, x⟩⟩ :: ps, d, s, hd, h0, h, hl => by
    obtain ⟨h1, h2, h3, h4⟩ := h _ (List.mem_cons_self ..)
    simp only at h1 h2 h3 h4
    subst h1; subst h2; subst h3; subst h4
    obtain ⟨s1, hs1, hl1, _⟩ := pgpe_tell (e := e) (f := f) hl hd h0
    have hpd : promote (promote d e) d0 = promote d e := by
      rw [promote_comm d e, promote_assoc, h0]
    obtain ⟨s2, hs2, hl2⟩ := runPGPE_like ps (promote d e) s1 (promote_float hd) hpd
      (fun p hp => h p (List.mem_cons_of_mem _ hp)) hl1
    exact ⟨s2, by simp only [runPGPE, hs1, Except.bind, hs2], hl2⟩

/-- The dtype reached by promotion is the smallest one which holds all the dtypes that came in. -/
theorem smallest_foldl : ∀ (ds : List Dt) (d : Dt), d ≠ .int64 → Dt.Smallest (d :: ds) (ds.foldl promote d) := by
  intro ds
  induction ds with
  | nil => intro d hd; exact ⟨hd, by simp [Dt.fits], fun b _ h => h d (by simp)⟩
  | cons e ds ih =>
    intro d hd
    obtain ⟨h1, h2, h3⟩ := ih (promote d e) (promote_float hd)
    have join : ∀ b, b ≠ .int64 → ((promote d e).fits b ↔ d.fits b ∧ e.fits b) := by
      intro b hb
      revert hd hb; cases d <;> cases e <;> cases b <;> decide
    refine ⟨h1, ?_, ?_⟩
    · intro a ha
      have hp := (join _ h1).1 (h2 (promote d e) (by simp))
      simp only [List.mem_cons] at ha
      rcases ha with rfl | rfl | ha
      · exact hp.1
      · exact hp.2
      · exact h2 a (by simp [ha])
    · intro b hb h
      refine h3 b hb fun a ha => ?_
      simp only [List.mem_cons] at ha
      rcases ha with rfl | ha
      · exact (join b hb).2 ⟨h d (by simp), h e (by simp)⟩
      · exact h a (by simp [ha])

theorem cem_view {center : Tn} {stdev : Inp} {lo hi change : Option Inp} {st : CEM Tn}
    (h : cem center (some stdev) none lo hi change = .ok st) :
    st.view = ⟨vec center.dt center.dev, vec center.dt center.dev, vec center.dt center.dev, vec center.dt center.dev,
      vec center.dt center.dev⟩ := by
  have := (C165_cem_initial center stdev lo hi change st h).2
  simp only [CEM.tensors, List.forall_mem_cons] at this
  obtain ⟨a, b, c, d, e, _⟩ := this
  simp [CEM.view, Tn.vector, a, b, c, d, e]

theorem pgpe_view {center : Tn} (hd : center.dt ≠ .int64) {rate stdevRate stdev : Inp} {cfg : Config}
    {ranking : Ranking} {symmetric : Bool} {lo hi change : Option Inp} {st : PGPE Tn}
    (h : pgpe center rate stdevRate cfg ranking symmetric (some stdev) none lo hi change = .ok st) :
    Like center.dt center.dt center.dev st.view := by
  obtain ⟨_, h2, _⟩ := C165_pgpe_initial center hd rate stdevRate stdev cfg ranking symmetric lo hi change st h
  obtain ⟨n, hn, h⟩ := bind_ok h
  obtain ⟨s, hs, h⟩ := bind_ok h
  obtain ⟨r, hr, h⟩ := bind_ok h
  obtain ⟨sr, hsr, h⟩ := bind_ok h
  obtain ⟨l, hl, h⟩ := bind_ok h
  obtain ⟨u, hu, h⟩ := bind_ok h
  obtain ⟨c, hc, h⟩ := bind_ok h
  obtain ⟨o, ho, h⟩ := bind_ok h
  cases h
  obtain ⟨_, _, ho3⟩ := init_ok hd ho
  have hs := asVector_ok hs
  have hl := asVector_ok hl
  have hu := asVector_ok hu
  have hc := asVector_ok hc
  have hsr := asTensor_ok hsr
  exact ⟨ho3, by simp [PGPE.view, Tn.vector, hs], by simp [PGPE.view, Tn.scalar, hsr], by simp [PGPE.view, Tn.vector, hl],
    by simp [PGPE.view, Tn.vector, hu], by simp [PGPE.view, Tn.vector, hc]⟩

/-- C165: after any history of `tell`s with populations of any floating point dtypes on the device of the center, and with
evaluations of any dtypes on that device or on the cpu, the center and the standard deviation of `cem` are on that device and
of the smallest dtype which holds the initial center and all populations; the bounds are as they were. -/
theorem C165_cem_history (center : Tn) (hd : center.dt ≠ .int64) (stdev : Inp) (lo hi change : Option Inp) (st : CEM Tn)
    (h : cem center (some stdev) none lo hi change = .ok st) (ps : List (L × L))
    (hps : ∀ p ∈ ps, p.1.dt ≠ .int64 ∧ p.1.dev = center.dev ∧ p.1.dim = true
      ∧ (p.2.dev = center.dev ∨ p.2.dev = .cpu)) :
    ∃ s' d, runCEM st.view ps = .ok s' ∧ Dt.Smallest (center.dt :: told ps) d
      ∧ s'.center = vec d center.dev ∧ s'.stdev = vec d center.dev
      ∧ s'.stdevMin = st.view.stdevMin ∧ s'.stdevMax = st.view.stdevMax ∧ s'.stdevMaxChange = st.view.stdevMaxChange := by
  rw [cem_view h]
  exact ⟨_, _, runCEM_like ps center.dt hd (promote_self _) hps, smallest_foldl _ _ hd, rfl, rfl, rfl, rfl, rfl⟩

/-- C165: so are the center and the standard deviation of `pgpe`, with each optimizer, ranking method and symmetry, when the
evaluations are on the device of the center too. -/
theorem C165_pgpe_history (center : Tn) (hd : center.dt ≠ .int64) (rate stdevRate stdev : Inp) (cfg : Config)
    (ranking : Ranking) (symmetric : Bool) (lo hi change : Option Inp) (st : PGPE Tn)
    (h : pgpe center rate stdevRate cfg ranking symmetric (some stdev) none lo hi change = .ok st) (ps : List (L × L))
    (hps : ∀ p ∈ ps, p.1.dev = center.dev ∧ p.1.dim = true ∧ p.2.dev = center.dev ∧ p.2.dim = true) :
    ∃ s' d, runPGPE st.view ps = .ok s' ∧ Dt.Smallest (center.dt :: told ps) d
      ∧ s'.optimizer.center = vec d center.dev ∧ s'.stdev = vec d center.dev := by
  obtain ⟨s', hs', hl⟩ := runPGPE_like ps center.dt st.view hd (promote_self _) hps (pgpe_view hd h)
  exact ⟨s', _, hs', smallest_foldl _ _ hd, hl.opt.center, hl.stdev⟩

theorem sample_of {d : Dt} {dev : Dev} (symmetric : Bool) (hd : d ≠ .int64) :
    sample symmetric (vec d dev) (vec d dev) = .ok (vec d dev) := by
  cases symmetric <;> simp [sample, normal, hd, bind, Except.bind, pure, Except.pure, binary_vec]

/-- C165: in every history of generations, with evaluations of any dtypes, all populations and all states of `cem` keep the
dtype and the device of the initial center. -/
theorem C165_cem_generations (center : Tn) (hd : center.dt ≠ .int64) (stdev : Inp) (lo hi change : Option Inp) (st : CEM Tn)
    (h : cem center (some stdev) none lo hi change = .ok st) (es : List L)
    (hes : ∀ e ∈ es, e.dev = center.dev ∨ e.dev = .cpu) :
    ∃ s', generationsCEM st.view es = .ok s' ∧ s'.ask = .ok (vec center.dt center.dev)
      ∧ ∀ t ∈ s'.tensors, t = vec center.dt center.dev := by
  rw [cem_view h]
  have key : ∀ es : List L, (∀ e ∈ es, e.dev = center.dev ∨ e.dev = .cpu) →
      generationsCEM ⟨vec center.dt center.dev, vec center.dt center.dev, vec center.dt center.dev, vec center.dt center.dev,
        vec center.dt center.dev⟩ es = .ok ⟨vec center.dt center.dev, vec center.dt center.dev, vec center.dt center.dev,
        vec center.dt center.dev, vec center.dt center.dev⟩ := by
    intro es
    induction es with
    | nil => intro _; rfl
    | cons e es ih =>
      intro hes
      obtain ⟨f, fdev, x⟩ := e
      have h1 := cem_tell center.dt center.dt center.dt f center.dev fdev x hd hd (promote_self _)
        (hes _ (List.mem_cons_self ..))
      rw [promote_self] at h1
      simp only [generationsCEM, CEM.ask, sample_of false hd, Except.bind, h1]
      exact ih fun e he => hes e (List.mem_cons_of_mem _ he)
  exact ⟨_, key es hes, sample_of false hd, by simp [CEM.tensors]⟩

/-- C165: the same for `pgpe`. -/
theorem C165_pgpe_generations (center : Tn) (hd : center.dt ≠ .int64) (rate stdevRate stdev : Inp) (cfg : Config)
    (ranking : Ranking) (symmetric : Bool) (lo hi change : Option Inp) (st : PGPE Tn)
    (h : pgpe center rate stdevRate cfg ranking symmetric (some stdev) none lo hi change = .ok st) (es : List L)
    (hes : ∀ e ∈ es, e.dev = center.dev ∧ e.dim = true) :
    ∃ s', generationsPGPE st.view es = .ok s' ∧ s'.ask = .ok (vec center.dt center.dev)
      ∧ ∀ t ∈ s'.tensors, t.dt = center.dt ∧ t.dev = center.dev := by
  have key : ∀ (es : List L) (s : PGPE L), (∀ e ∈ es, e.dev = center.dev ∧ e.dim = true) →
      Like center.dt center.dt center.dev s →
      ∃ s', generationsPGPE s es = .ok s' ∧ Like center.dt center.dt center.dev s' := by
    intro es
    induction es with
    | nil => intro s _ hl; exact ⟨s, rfl, hl⟩
    | cons e es ih =>
      intro s hes hl
      obtain ⟨f, fdev, x⟩ := e
      obtain ⟨he1, he2⟩ := hes _ (List.mem_cons_self ..)
      simp only at he1 he2
      subst he1; subst he2
      obtain ⟨s1, hs1, hl1, _⟩ := pgpe_tell (e := center.dt) (f := f) hl hd (promote_self _)
      rw [promote_self] at hl1
      obtain ⟨s2, hs2, hl2⟩ := ih s1 (fun e he => hes e (List.mem_cons_of_mem _ he)) hl1
      refine ⟨s2, ?_, hl2⟩
      have ha : s.ask = .ok (vec center.dt center.dev) := by
        rw [PGPE.ask, hl.opt.center, hl.stdev]; exact sample_of _ hd
      simp only [generationsPGPE, ha, Except.bind, hs1, hs2]
  obtain ⟨s', hs', hl⟩ := key es st.view hes (pgpe_view hd h)
  refine ⟨s', hs', ?_, ?_⟩
  · rw [PGPE.ask, hl.opt.center, hl.stdev]; exact sample_of _ hd
  · intro t ht
    simp only [PGPE.tensors, List.mem_append, List.mem_cons, List.not_mem_nil, or_false] at ht
    rcases ht with ht | ht | ht | ht | ht | ht
    · exact OptLike.all hl.opt t ht
    · rw [ht, hl.stdev]; exact ⟨rfl, rfl⟩
    · rw [ht, hl.rate]; exact ⟨rfl, rfl⟩
    · rw [ht, hl.lo]; exact ⟨rfl, rfl⟩
    · rw [ht, hl.hi]; exact ⟨rfl, rfl⟩
    · rw [ht, hl.change]; exact ⟨rfl, rfl⟩

/-- The hypotheses are met by all three optimizers in half precision on a CUDA device, with integers as evaluations. -/
example (cfg : Config) : ∃ st s', pgpe ⟨.bf16, .cuda 1, [3]⟩ .number .number cfg .nes true (some .number) none none none
      (some .number) = .ok st ∧ generationsPGPE st.view [vec .int64 (.cuda 1), vec .f64 (.cuda 1)] = .ok s'
      ∧ s'.ask = .ok (vec .bf16 (.cuda 1)) := by
  obtain ⟨st, h⟩ := C165_pgpe_accepts ⟨.bf16, .cuda 1, [3]⟩ 3 (by decide) rfl (by decide) .number .number .number cfg .nes true
    none none (some .number) (Or.inl rfl) (by simp) (by simp) (by simp [Inp.Goes, Inp.number])
  obtain ⟨s', h1, h2, _⟩ := C165_pgpe_generations _ (by decide) _ _ _ _ _ _ _ _ _ st h
    [vec .int64 (.cuda 1), vec .f64 (.cuda 1)] (by simp)
  exact ⟨st, s', h, h1, h2⟩

/-- C165: populations of a wider dtype do widen the state: after a double precision population, a single precision `cem` is a
double precision one, so that the guard of the previous theorems cannot be dropped. -/
theorem C165_told_populations_widen (center : Tn) (hc : center.dt = .f32) (stdev : Inp) (lo hi change : Option Inp)
    (st : CEM Tn) (h : cem center (some stdev) none lo hi change = .ok st) (f : Dt) :
    ∃ s', runCEM st.view [(vec .f64 center.dev, vec f center.dev)] = .ok s' ∧ s'.ask = .ok (vec .f64 center.dev) := by
  have := runCEM_like (d0 := center.dt) (dev := center.dev) [(vec .f64 center.dev, vec f center.dev)] center.dt (by simp [hc])
    (promote_self _) (by simp)
  rw [cem_view h]
  refine ⟨_, this, ?_⟩
  simp [CEM.ask, sample, normal, told, hc, promote]

/-- C165: evaluations on the cpu are refused by `pgpe` when its tensors are on a CUDA device, in each history and for each
optimizer, ranking method and symmetry; `cem` accepts them (`C165_cem_history`). -/
theorem C165_pgpe_evaluations_device (center : Tn) (hd : center.dt ≠ .int64) (i : ℕ) (hdev : center.dev = .cuda i)
    (rate stdevRate stdev : Inp) (cfg : Config)
    (ranking : Ranking) (symmetric : Bool) (lo hi change : Option Inp) (st : PGPE Tn)
    (h : pgpe center rate stdevRate cfg ranking symmetric (some stdev) none lo hi change = .ok st) (e f : Dt) :
    runPGPE st.view [(vec e center.dev, vec f .cpu)] = .error .runtimeError := by
  have hl := pgpe_view hd h
  have hw : weights center.dt st.view.ranking (vec f .cpu) = .ok (vec center.dt .cpu) := weights_of _ hd
  have hb : binary (vec center.dt .cpu) (vec (promote e center.dt) center.dev) = .error .runtimeError := by
    simp [binary, devices, hdev, bind, Except.bind]
  have hg : gradients st.view.symmetric st.view.ranking (vec center.dt center.dev) (vec center.dt center.dev)
      (vec e center.dev) (vec f .cpu) = .error .runtimeError := by
    cases st.view.symmetric <;>
      simp [gradients, distributionDtype, hw, bind, Except.bind, binary_vec, floating, hd, hb]
  simp [runPGPE, PGPE.tell, hl.opt.center, hl.stdev, hg, bind, Except.bind]

/-! ## The radius -/

theorem stdev_of_radius (center : Tn) (n : ℕ) (r : Inp) (hd : center.dt ≠ .int64) :
    getStdevInit center n none (some r)
      = if center.dev = .cpu then .ok ⟨promote center.dt .f32, .cpu, r.shape ++ [n]⟩ else .error .runtimeError := by
  by_cases h : center.dev = .cpu
  · simp [getStdevInit, asTensor_float r hd, bind, Except.bind, pure, Except.pure, Tn.scalar, h, binary, devices, resultType,
      floating, hd]
  · simp [getStdevInit, asTensor_float r hd, bind, Except.bind, h, binary, devices]

/-- C165: with a radius, the standard deviation has the dtype and the device of a floating point center exactly when the center
is of single or of double precision and on the cpu. -/
theorem C165_radius_exactly (center : Tn) (n : ℕ) (r : Inp) (hd : center.dt ≠ .int64) :
    (∃ t, getStdevInit center n none (some r) = .ok t ∧ t.dt = center.dt ∧ t.dev = center.dev ∧ t.shape = r.shape ++ [n])
      ↔ center.dev = .cpu ∧ (center.dt = .f32 ∨ center.dt = .f64) := by
  rw [stdev_of_radius center n r hd]
  constructor
  · rintro ⟨t, h1, h2, h3, _⟩
    by_cases h : center.dev = .cpu
    · simp only [h, if_true, Except.ok.injEq] at h1
      subst h1
      refine ⟨h, ?_⟩
      revert h2 hd
      cases center.dt <;> simp [promote]
    · simp [h] at h1
  · rintro ⟨h, h2⟩
    refine ⟨⟨promote center.dt .f32, .cpu, r.shape ++ [n]⟩, by simp [h], ?_, h.symm, rfl⟩
    rcases h2 with h2 | h2 <;> simp [h2, promote]

/-- C165 violated: with a radius, a half precision center gives a state whose every `tell` raises, whatever it is told, after
an `ask` which works. -/
theorem C165_violated_radius_half (center : Tn) (n : ℕ) (hn : center.shape = [n + 1]) (hdev : center.dev = .cpu)
    (hd : center.dt = .f16 ∨ center.dt = .bf16) :
    (∃ st, cem center none (some .number) none none none = .ok st ∧ st.view.ask = .ok (vec center.dt .cpu)
      ∧ ∀ values evals, st.view.tell values evals = .error .valueError)
    ∧ ∀ (rate stdevRate : Inp) (cfg : Config) (ranking : Ranking) (symmetric : Bool),
      ∃ st, pgpe center rate stdevRate cfg ranking symmetric none (some .number) none none none = .ok st
        ∧ st.view.ask = .ok (vec center.dt .cpu) ∧ ∀ values evals, st.view.tell values evals = .error .valueError := by
  have hi : center.dt ≠ .int64 := by rcases hd with h | h <;> simp [h]
  have hp : promote center.dt .f32 = .f32 := by rcases hd with h | h <;> simp [h, promote]
  have h32 : center.dt ≠ .f32 := by rcases hd with h | h <;> simp [h]
  have hlen : solutionLength center = .ok (n + 1) := by simp [solutionLength, hn]
  have hs := stdev_of_radius center (n + 1) .number hi
  rw [if_pos hdev, hp] at hs
  have hnum : (Inp.number).shape = [] := rfl
  have hinf : (Inp.infinity).shape = [] := rfl
  have hv : ∀ x : Inp, x.shape = [] → asVectorLikeCenter center (n + 1) x = .ok ⟨center.dt, center.dev, [n + 1]⟩ := by
    intro x hx
    simp [asVectorLikeCenter, asTensor_float x hi, hx, bind, Except.bind, pure, Except.pure]
  refine ⟨⟨⟨center, ⟨.f32, .cpu, [n + 1]⟩, ⟨center.dt, center.dev, [n + 1]⟩, ⟨center.dt, center.dev, [n + 1]⟩,
    ⟨center.dt, center.dev, [n + 1]⟩⟩, ?_, ?_, ?_⟩, ?_⟩
  · simp [cem, hlen, hs, hv, hnum, hinf, bind, Except.bind, pure, Except.pure]
  · simp [CEM.view, CEM.ask, Tn.vector, sample, normal, hdev, hi]
  · intro values evals
    simp [CEM.view, CEM.tell, Tn.vector, eliteGradients, distributionDtype, h32, bind, Except.bind]
  · intro rate stdevRate cfg ranking symmetric
    obtain ⟨o, ho⟩ := init_accepts cfg center ⟨rate.shape, false⟩ hi
    obtain ⟨_, _, ho3⟩ := init_ok hi ho
    have hc := ho3.center
    refine ⟨⟨o, ⟨.f32, .cpu, [n + 1]⟩, ⟨center.dt, center.dev, stdevRate.shape⟩, ⟨center.dt, center.dev, [n + 1]⟩,
      ⟨center.dt, center.dev, [n + 1]⟩, ⟨center.dt, center.dev, [n + 1]⟩, ranking, symmetric⟩, ?_, ?_, ?_⟩
    · simp [pgpe, hlen, hs, hv, ho, asTensor_float _ hi, hnum, hinf, bind, Except.bind, pure, Except.pure]
    · cases symmetric <;>
        simp [PGPE.view, PGPE.ask, hc, Tn.vector, sample, normal, hdev, hi, binary_vec, bind, Except.bind, pure, Except.pure]
    · intro values evals
      simp [PGPE.view, PGPE.tell, hc, Tn.vector, gradients, distributionDtype, h32, bind, Except.bind]

/-- C165 violated: with a radius, no center on a CUDA device gives a state at all. -/
theorem C165_violated_radius_cuda (center : Tn) (i n : ℕ) (hdev : center.dev = .cuda i) (hd : center.dt ≠ .int64)
    (hn : center.shape.getLast? = some (n + 1)) (r : Inp) (lo hi change : Option Inp) :
    cem center none (some r) lo hi change = .error .runtimeError
    ∧ ∀ (rate stdevRate : Inp) (cfg : Config) (ranking : Ranking) (symmetric : Bool),
      pgpe center rate stdevRate cfg ranking symmetric none (some r) lo hi change = .error .runtimeError := by
  have hlen : solutionLength center = .ok (n + 1) := by simp [solutionLength, hn]
  have hs := stdev_of_radius center (n + 1) r hd
  rw [if_neg (by simp [hdev])] at hs
  constructor
  · simp [cem, hlen, hs, bind, Except.bind]
  · intros; simp [pgpe, hlen, hs, bind, Except.bind]

/-! ## Centers of integers -/

/-- C165 violated: a center of integers, such as `center_init=[0, 0, 0]`, is refused by `cem` and by `pgpe` unless a finite upper
bound of the standard deviation is given. -/
theorem C165_violated_integer_center (center : Tn) (n : ℕ) (hd : center.dt = .int64)
    (hn : center.shape.getLast? = some (n + 1)) (change : Option Inp) :
    cem center (some .number) none none none change = .error .runtimeError
    ∧ ∀ (cfg : Config) (ranking : Ranking) (symmetric : Bool),
      pgpe center .number .number cfg ranking symmetric (some .number) none none none change = .error .runtimeError := by
  have hlen : solutionLength center = .ok (n + 1) := by simp [solutionLength, hn]
  have h1 : asVectorLikeCenter center (n + 1) .number = .ok ⟨center.dt, center.dev, [n + 1]⟩ := by
    simp [asVectorLikeCenter, asTensor, Inp.number, bind, Except.bind, pure, Except.pure]
  have h2 : asVectorLikeCenter center (n + 1) .infinity = .error .runtimeError := by
    simp [asVectorLikeCenter, asTensor, Inp.infinity, hd, bind, Except.bind]
  have h3 : asTensor center .number = .ok ⟨center.dt, center.dev, []⟩ := by simp [asTensor, Inp.number]
  constructor
  · simp [cem, hlen, getStdevInit, h1, h2, bind, Except.bind]
  · intros; simp [pgpe, hlen, getStdevInit, h1, h2, h3, bind, Except.bind]

/-- C165 violated: the functional `sgd` with a center of integers never moves when its learning rate is a fraction, whatever
gradients it follows; with floating point numbers the first step is the gradient times the learning rate. -/
theorem C165_violated_integer_sgd (center : Fin k → ℝ) (rate : ℝ) (h0 : 0 ≤ rate) (h1 : rate < 1) (momentum : Option ℝ) :
    (∀ gs : List (Fin k → ℝ), (gs.foldl Optimizers.sgdTell (sgdNumbers .int64 center rate momentum)).center = center)
    ∧ ∀ (d : Dt) (g : Fin k → ℝ), d ≠ .int64 →
        (Optimizers.sgdTell (sgdNumbers d center rate momentum) g).center = fun j => center j + rate * g j := by
  constructor
  · have hz : stored .int64 rate = 0 := by
      have : ⌊rate⌋ = 0 := Int.floor_eq_zero_iff.2 ⟨h0, h1⟩
      simp [stored, h0, this]
    have key : ∀ (gs : List (Fin k → ℝ)) (s : Optimizers.SGDState k), s.lr = 0 → (s.velocity = fun _ => 0) →
        (gs.foldl Optimizers.sgdTell s).center = s.center := by
      intro gs
      induction gs with
      | nil => intros; rfl
      | cons g gs ih =>
        intro s hl hv
        rw [List.foldl_cons, ih]
        · simp [Optimizers.sgdTell, hl, hv]
        · exact hl
        · simp [Optimizers.sgdTell, hl, hv]
    intro gs
    exact key gs _ (by simp [sgdNumbers, Optimizers.sgd, hz]) rfl
  · intro d g hd
    funext j
    simp [sgdNumbers, Optimizers.sgd, Optimizers.sgdTell, stored, hd]

end EvoTorch.SearchTypes
