import Verif.Model.ObsSync
import Mathlib.Data.List.Perm.Basic
import Mathlib.Algebra.BigOperators.Group.List.Basic
import Mathlib.Tactic.Ring
import Mathlib.Tactic.IntervalCases
/-! Property C59: synchronisation of observation statistics and counters. -/
namespace EvoTorch.ObsSync
variable {O : Type}

/-- What a user does: evaluates (the scheduler decides which actor evaluates what), pickles or clones the problem and goes on with it (`pickle`), or continues with
a pickled or cloned copy (`clone`). -/
inductive Op (O : Type) where
  | evaluate (work : List (Nat × Work O))
  | clone
  | pickle

def Op.work : Op O → List (Work O)
  | .evaluate w => w.map Prod.snd
  | .clone => []
  | .pickle => []

/-- Everything done by anyone in a history. -/
def allWork (ops : List (Op O)) : List (Work O) := ops.flatMap Op.work

def Sys.step (c : Config) (s : Sys O) : Op O → Except PyErr (Sys O)
  | .evaluate w => s.evaluate c w
  | .clone => .ok s.clone
  | .pickle => .ok s.pickled

def runOps (c : Config) (ops : List (Op O)) : Except PyErr (Sys O) := ops.foldlM (Sys.step c) (Sys.fresh c)

/-- Actor numbers exist, and with `VecGymNE` (and normalisation) each actor evaluates something in each evaluation. -/
def Op.Proper (c : Config) : Op O → Prop
  | .clone => True
  | .pickle => True
  | .evaluate w => (0 < c.numActors → ∀ iw ∈ w, iw.1 < c.numActors) ∧
      (c.vec = true → c.norm = true → ∀ i < c.numActors, ∃ iw ∈ w, iw.1 = i)

def steps (ws : List (Work O)) : Nat := (ws.map Work.steps).sum
def episodes (ws : List (Work O)) : Nat := (ws.map Work.episodes).sum
def observations (ws : List (Work O)) : List O := ws.flatMap Work.obs

/-- The invariant between operations, for a parallelised problem. -/
structure Inv (c : Config) (s : Sys O) (ws : List (Work O)) : Prop where
  obs : c.norm = true → (s.main.obs.getD []).Perm (observations ws)
  obsSome : c.vec = false → s.main.obs ≠ none
  stp : s.main.interactions = steps ws
  eps : s.main.episodes = episodes ws
  coll : 0 < c.numActors → s.main.collected = noStats c
  acts : 0 < c.numActors → ∀ as, s.actors = some as → as.length = c.numActors ∧ (∀ a ∈ as, a.collected = noStats c) ∧
    (as.map Prob.interactions).sum = steps ws ∧ (as.map Prob.episodes).sum = episodes ws
  rem : 0 < c.numActors → s.actors = none → ∀ st, s.remote = some st → st.length = c.numActors ∧
    (st.map Prod.fst).sum = steps ws ∧ (st.map Prod.snd).sum = episodes ws
  fresh : 0 < c.numActors → s.actors = none → s.remote = none → s.main.interactions = 0 ∧ s.main.episodes = 0
  noActs : c.numActors = 0 → s.actors = none

theorem inv_fresh (c : Config) : Inv c (Sys.fresh c : Sys O) [] := by
  constructor <;> simp [Sys.fresh, Prob.fresh, noStats, observations, steps, episodes]
  · intro _; split <;> simp

theorem parallelize_inv (c : Config) (s : Sys O) (ws : List (Work O)) (h : Inv c s ws) :
    Inv c (s.parallelize c) ws ∧ (0 < c.numActors → (s.parallelize c).actors ≠ none) := by
  unfold Sys.parallelize
  by_cases hn : c.numActors = 0
  · simp [hn, h]
  have hpos : 0 < c.numActors := Nat.pos_of_ne_zero hn
  simp only [hn, if_false]
  cases ha : s.actors with
  | some as => simp [h, ha]
  | none =>
    simp only [Option.isSome, Bool.false_eq_true, if_false, ne_eq, reduceCtorEq, not_false_eq_true, implies_true, and_true]
    refine ⟨h.obs, h.obsSome, h.stp, h.eps, h.coll, ?_, by simp, by simp, fun e => absurd e hn⟩
    intro _ as has
    simp only [Option.some.injEq] at has
    subst has
    cases hr : s.remote with
    | none =>
      obtain ⟨f1, f2⟩ := h.fresh hpos ha hr
      refine ⟨by simp, ?_, ?_, ?_⟩
      · intro a m; rw [Option.elim, List.mem_replicate] at m; rw [m.2]; exact h.coll hpos
      · rw [← h.stp]; simp [f1]
      · rw [← h.eps]; simp [f2]
    | some st =>
      obtain ⟨r1, r2, r3⟩ := h.rem hpos ha st hr
      refine ⟨by simp [r1], ?_, ?_, ?_⟩
      · intro a m
        obtain ⟨ie, _, rfl⟩ := List.mem_map.1 m
        exact h.coll hpos
      · rw [← r2]; simp [List.map_map, Function.comp_def]
      · rw [← r3]; simp [List.map_map, Function.comp_def]

/-! Counting -/

theorem sum_modify {α : Type} (f : α → Nat) (g : α → α) (d : Nat) (hg : ∀ a, f (g a) = f a + d) : ∀ (as : List α) (i : Nat),
    i < as.length → ((as.modify i g).map f).sum = (as.map f).sum + d := by
  intro as
  induction as with
  | nil => intro i h; simp at h
  | cons a as ih =>
    intro i h
    cases i with
    | zero => simp [hg]; ring
    | succ i => simp [ih i (by simpa using h)]; ring

theorem flatMap_modify {α β : Type} (f : α → List β) (g : α → α) (d : List β) (hg : ∀ a, f (g a) = f a ++ d) : ∀ (as : List α) (i : Nat),
    i < as.length → ((as.modify i g).flatMap f).Perm (as.flatMap f ++ d) := by
  intro as
  induction as with
  | nil => intro i h; simp at h
  | cons a as ih =>
    intro i h
    cases i with
    | zero =>
      simp only [List.modify_zero_cons, List.flatMap_cons, hg, List.append_assoc]
      exact List.Perm.append_left _ List.perm_append_comm
    | succ i =>
      simp only [List.modify_succ_cons, List.flatMap_cons, List.append_assoc]
      exact (ih i (by simpa using h)).append_left _

theorem doPieces_spec (c : Config) : ∀ (work : List (Nat × Work O)) (as : List (Prob O)), (∀ iw ∈ work, iw.1 < as.length) →
    (doPieces c as work).length = as.length ∧
    ((doPieces c as work).map Prob.interactions).sum = (as.map Prob.interactions).sum + steps (work.map Prod.snd) ∧
    ((doPieces c as work).map Prob.episodes).sum = (as.map Prob.episodes).sum + episodes (work.map Prod.snd) ∧
    (c.norm = true → ((doPieces c as work).flatMap fun a => a.collected.getD []).Perm
      ((as.flatMap fun a => a.collected.getD []) ++ observations (work.map Prod.snd))) := by
  intro work
  induction work with
  | nil => intro as _; simp [doPieces, steps, episodes, observations]
  | cons iw work ih =>
    intro as h
    obtain ⟨i, w⟩ := iw
    have hi : i < as.length := h (i, w) (by simp)
    have hl : (as.modify i fun p => p.perform c w).length = as.length := List.length_modify ..
    obtain ⟨a1, a2, a3, a4⟩ := ih (as.modify i fun p => p.perform c w) (by
      intro x hx; rw [hl]; exact h x (by simp [hx]))
    refine ⟨by simp only [doPieces, a1, hl], ?_, ?_, ?_⟩
    · simp only [doPieces, a2]
      rw [sum_modify Prob.interactions _ w.steps (fun a => rfl) as i hi]
      simp [steps]; ring
    · simp only [doPieces, a3]
      rw [sum_modify Prob.episodes _ w.episodes (fun a => rfl) as i hi]
      simp [episodes]; ring
    · intro hnorm
      simp only [doPieces]
      refine (a4 hnorm).trans ?_
      have := flatMap_modify (fun a : Prob O => a.collected.getD []) (fun p => p.perform c w) w.obs
        (fun a => by simp [Prob.perform, hnorm]) as i hi
      refine (this.append_right _).trans ?_
      simp [observations]

theorem doPieces_collected (c : Config) (hnorm : c.norm = true) : ∀ (work : List (Nat × Work O)) (as : List (Prob O)) (i : Nat) (p : Prob O),
    (doPieces c as work)[i]? = some p → (as[i]?.bind Prob.collected).isSome ∨ (∃ iw ∈ work, iw.1 = i) → p.collected.isSome := by
  intro work
  induction work with
  | nil =>
    intro as i p hp h
    simp only [doPieces] at hp
    simpa [hp] using h
  | cons iw work ih =>
    intro as i p hp h
    obtain ⟨k, w⟩ := iw
    simp only [doPieces] at hp
    apply ih _ i p hp
    by_cases hk : k = i
    · subst hk
      by_cases hw : ∃ iw ∈ work, iw.1 = k
      · exact Or.inr hw
      left
      rw [List.getElem?_modify]
      have hlt : k < as.length := by
        by_contra hge
        have hlen : ∀ (ws : List (Nat × Work O)) (bs : List (Prob O)), (doPieces c bs ws).length = bs.length := by
          intro ws; induction ws with
          | nil => intro bs; rfl
          | cons x ws ihw => intro bs; simp [doPieces, ihw]
        have := List.getElem?_eq_some_iff.1 hp
        obtain ⟨hh, _⟩ := this
        rw [hlen, List.length_modify] at hh
        exact hge hh
      simp [List.getElem?_eq_getElem hlt, Prob.perform, hnorm]
    · rcases h with h | ⟨x, hx, hxi⟩
      · left; rw [List.getElem?_modify]; simpa [hk] using h
      · rcases List.mem_cons.1 hx with rfl | hx
        · exact absurd hxi hk
        · exact Or.inr ⟨x, hx, hxi⟩

theorem gather_stats (c : Config) : ∀ (as : List (Prob O)) (m : Option (List O)), (∀ a ∈ as, a.collected.isSome) → (m ≠ none ∨ as ≠ [] ∨ True) →
    ∃ r, as.foldlM (fun s (a : Prob O) => mergeStats s a.collected) m = (.ok r : Except PyErr _) ∧
      (r.getD []).Perm (m.getD [] ++ as.flatMap fun a => a.collected.getD []) ∧ (m ≠ none → r ≠ none) := by
  intro as
  induction as with
  | nil => intro m _ _; exact ⟨m, rfl, by simp, id⟩
  | cons a as ih =>
    intro m h _
    obtain ⟨b, hb⟩ := Option.isSome_iff_exists.1 (h a (by simp))
    have hm : mergeStats m a.collected = .ok (some (m.getD [] ++ b)) := by
      cases m <;> simp [mergeStats, hb]
    obtain ⟨r, hr, hp, hne⟩ := ih (some (m.getD [] ++ b)) (fun x hx => h x (by simp [hx])) (by simp)
    refine ⟨r, ?_, ?_, fun _ => hne (by simp)⟩
    · rw [List.foldlM_cons, hm]; exact hr
    · simpa [hb] using hp

theorem foldl_perform (c : Config) : ∀ (work : List (Nat × Work O)) (p : Prob O),
    (work.foldl (fun p iw => p.perform c iw.2) p).interactions = p.interactions + steps (work.map Prod.snd) ∧
    (work.foldl (fun p iw => p.perform c iw.2) p).episodes = p.episodes + episodes (work.map Prod.snd) ∧
    (c.norm = true → (work.foldl (fun p iw => p.perform c iw.2) p).obs.getD [] = p.obs.getD [] ++ observations (work.map Prod.snd)) ∧
    (p.obs ≠ none → (work.foldl (fun p iw => p.perform c iw.2) p).obs ≠ none) := by
  intro work
  induction work with
  | nil => intro p; simp [steps, episodes, observations]
  | cons iw work ih =>
    intro p
    obtain ⟨a1, a2, a3, a4⟩ := ih (p.perform c iw.2)
    refine ⟨?_, ?_, ?_, ?_⟩
    · simp only [List.foldl_cons, a1]; simp [steps, Prob.perform]; ring
    · simp only [List.foldl_cons, a2]; simp [episodes, Prob.perform]; ring
    · intro hn; simp only [List.foldl_cons, a3 hn]; simp [observations, Prob.perform, hn]
    · intro hp; simp only [List.foldl_cons]; apply a4; simp only [Prob.perform]; split
      · simp
      · exact hp

theorem step_inv (c : Config) (s : Sys O) (ws : List (Work O)) (h : Inv c s ws) (op : Op O) (hop : op.Proper c) :
    ∃ s', s.step c op = .ok s' ∧ Inv c s' (ws ++ op.work) := by
  cases op with
  | pickle =>
    refine ⟨_, rfl, ?_⟩
    simp only [Op.work, List.append_nil]
    refine ⟨h.obs, h.obsSome, h.stp, h.eps, h.coll, h.acts, ?_, ?_, h.noActs⟩
    · intro hpos ha st hst
      replace ha : s.actors = none := ha
      exact h.rem hpos ha st (by simpa [Sys.pickled, ha] using hst)
    · intro hpos ha hr
      replace ha : s.actors = none := ha
      exact h.fresh hpos ha (by simpa [Sys.pickled, ha] using hr)
  | clone =>
    refine ⟨_, rfl, ?_⟩
    simp only [Op.work, List.append_nil]
    refine ⟨h.obs, h.obsSome, h.stp, h.eps, h.coll, by simp [Sys.clone], ?_, ?_, by simp [Sys.clone]⟩
    · intro hpos _ st hst
      cases ha : s.actors with
      | none => exact h.rem hpos ha st (by simpa [Sys.clone, ha] using hst)
      | some as =>
        obtain ⟨b1, b2, b3, b4⟩ := h.acts hpos as ha
        have : st = as.map fun a => (a.interactions, a.episodes) := by simpa [Sys.clone, ha] using hst.symm
        subst this
        refine ⟨by simp [b1], ?_, ?_⟩
        · rw [← b3]; simp [List.map_map, Function.comp_def]
        · rw [← b4]; simp [List.map_map, Function.comp_def]
    · intro hpos _ hr
      cases ha : s.actors with
      | none => exact h.fresh hpos ha (by simpa [Sys.clone, ha] using hr)
      | some as => simp [Sys.clone, ha] at hr
  | evaluate work =>
    obtain ⟨hp, hsome⟩ := parallelize_inv c s ws h
    simp only [Sys.step, Sys.evaluate, Op.work]
    generalize s.parallelize c = t at hp hsome
    have hst : ∀ x, steps (ws ++ x) = steps ws + steps x := fun x => by simp [steps]
    have hep : ∀ x, episodes (ws ++ x) = episodes ws + episodes x := fun x => by simp [episodes]
    have hob : ∀ x, observations (ws ++ x) = observations ws ++ observations x := fun x => by simp [observations]
    cases ha : t.actors with
    | none =>
      have hz : c.numActors = 0 := by
        by_contra hne
        exact hsome (Nat.pos_of_ne_zero hne) ha
      obtain ⟨f1, f2, f3, f4⟩ := foldl_perform c work t.main
      refine ⟨_, rfl, ?_⟩
      refine ⟨?_, ?_, ?_, ?_, fun e => absurd hz e.ne', fun e => absurd hz e.ne', fun e => absurd hz e.ne', fun e => absurd hz e.ne', fun _ => rfl⟩
      · intro hn; simp only [f3 hn, hob]; exact (hp.obs hn).append_right _
      · intro hv; exact f4 (hp.obsSome hv)
      · simp only [f1, hst, hp.stp]
      · simp only [f2, hep, hp.eps]
    | some as =>
      have hpos : 0 < c.numActors := by
        rcases Nat.eq_zero_or_pos c.numActors with h0 | h0
        · have := hp.noActs h0; rw [ha] at this; simp at this
        · exact h0
      obtain ⟨b1, b2, b3, b4⟩ := hp.acts hpos as ha
      have hrl : (as.map fun a => a.receive c t.main.obs).length = as.length := by simp
      have hrint : ((as.map fun a => a.receive c t.main.obs).map Prob.interactions) = as.map Prob.interactions := by
        rw [List.map_map]; apply List.map_congr_left; intro a _; simp only [Function.comp, Prob.receive]; split <;> rfl
      have hreps : ((as.map fun a => a.receive c t.main.obs).map Prob.episodes) = as.map Prob.episodes := by
        rw [List.map_map]; apply List.map_congr_left; intro a _; simp only [Function.comp, Prob.receive]; split <;> rfl
      have hrcoll : ∀ a ∈ (as.map fun a => a.receive c t.main.obs), a.collected = noStats c := by
        intro a hm
        obtain ⟨a', hm', rfl⟩ := List.mem_map.1 hm
        simp only [Prob.receive]; split
        · exact b2 a' hm'
        · exact b2 a' hm'
      generalize hbs : (as.map fun a => a.receive c t.main.obs) = bs at hrl hrint hreps hrcoll
      obtain ⟨d1, d2, d3, d4⟩ := doPieces_spec c work bs (by
        intro iw hm; rw [hrl, b1]; exact hop.1 hpos iw hm)
      have hg : ∃ m, gather c t.main (doPieces c bs work) = .ok m ∧ m.collected = t.main.collected ∧
          m.interactions = ((doPieces c bs work).map Prob.interactions).sum ∧ m.episodes = ((doPieces c bs work).map Prob.episodes).sum ∧
          (c.norm = true → (m.obs.getD []).Perm (t.main.obs.getD [] ++ observations (work.map Prod.snd))) ∧ (t.main.obs ≠ none → m.obs ≠ none) := by
        by_cases hn : c.norm = true
        · have hall : ∀ a ∈ doPieces c bs work, a.collected.isSome := by
            intro a hm
            obtain ⟨i, hi, rfl⟩ := List.mem_iff_getElem.1 hm
            apply doPieces_collected c hn work bs i _ (List.getElem?_eq_getElem hi)
            have hib : i < bs.length := by rw [← d1]; exact hi
            cases hv : c.vec with
            | false =>
              left
              rw [List.getElem?_eq_getElem hib]
              simp [hrcoll _ (List.getElem_mem hib), noStats, hv]
            | true => right; exact hop.2 hv hn i (by rw [← b1, ← hrl]; exact hib)
          obtain ⟨r, hr, hperm, hne⟩ := gather_stats c (doPieces c bs work) t.main.obs hall (by simp)
          refine ⟨{ t.main with obs := r, episodes := ((doPieces c bs work).map Prob.episodes).sum, interactions := ((doPieces c bs work).map Prob.interactions).sum }, by simp only [gather, hn, if_true, hr, Except.map], rfl, rfl, rfl, ?_, hne⟩
          intro _
          refine hperm.trans (List.Perm.append_left _ ((d4 hn).trans ?_))
          have : (bs.flatMap fun a => a.collected.getD []) = [] := by
            rw [List.flatMap_eq_nil_iff]
            intro a hm; rw [hrcoll a hm]; unfold noStats; split <;> rfl
          rw [this]; simp
        · refine ⟨{ t.main with episodes := ((doPieces c bs work).map Prob.episodes).sum, interactions := ((doPieces c bs work).map Prob.interactions).sum }, by simp only [gather, hn, Bool.false_eq_true, if_false, Except.map], rfl, rfl, rfl, fun h => absurd h hn, id⟩
      obtain ⟨m, hm, m1, m2, m3, m4, m5⟩ := hg
      simp only [ha, hbs, hm, Except.map]
      refine ⟨_, rfl, ?_⟩
      have hpopi : ((doPieces c bs work).map (Prob.pop c)).map Prob.interactions = (doPieces c bs work).map Prob.interactions := by
        rw [List.map_map]; apply List.map_congr_left; intro a _; simp only [Function.comp, Prob.pop]; split <;> rfl
      have hpope : ((doPieces c bs work).map (Prob.pop c)).map Prob.episodes = (doPieces c bs work).map Prob.episodes := by
        rw [List.map_map]; apply List.map_congr_left; intro a _; simp only [Function.comp, Prob.pop]; split <;> rfl
      refine ⟨?_, ?_, ?_, ?_, ?_, ?_, by simp, by simp, fun e => absurd e hpos.ne'⟩
      · intro hn; simp only [hob]; exact (m4 hn).trans ((hp.obs hn).append_right _)
      · intro hv; exact m5 (hp.obsSome hv)
      · simp only [m2, d2, hrint, b3, hst]
      · simp only [m3, d3, hreps, b4, hep]
      · intro _; simp only [m1]; exact hp.coll hpos
      · intro _ as' has'
        simp only [Option.some.injEq] at has'
        subst has'
        refine ⟨by simp [d1, hrl, b1], ?_, ?_, ?_⟩
        · intro a hm'
          obtain ⟨a', hm'', rfl⟩ := List.mem_map.1 hm'
          by_cases hn : c.norm = true
          · simp [Prob.pop, hn]
          · have hkeep : ∀ (w : List (Nat × Work O)) (xs : List (Prob O)), (∀ x ∈ xs, x.collected = noStats c) →
                ∀ x ∈ doPieces c xs w, x.collected = noStats c := by
              intro w
              induction w with
              | nil => intro xs hxs x hx; exact hxs x hx
              | cons iw w ihw =>
                intro xs hxs x hx
                refine ihw _ ?_ x hx
                intro y hy
                obtain ⟨k, hk, rfl⟩ := List.mem_iff_getElem.1 hy
                rw [List.getElem_modify]
                split
                · simp only [Prob.perform, hn, Bool.false_eq_true, if_false]; exact hxs _ (List.getElem_mem _)
                · exact hxs _ (List.getElem_mem _)
            simp only [Prob.pop, hn, Bool.false_eq_true, if_false]
            exact hkeep work bs hrcoll a' hm''
        · rw [hpopi, d2, hrint, b3, hst]
        · rw [hpope, d3, hreps, b4, hep]

theorem runOps_inv (c : Config) (ops : List (Op O)) (hops : ∀ op ∈ ops, op.Proper c) :
    ∃ s, runOps c ops = .ok s ∧ Inv c s (allWork ops) := by
  have key : ∀ (ops : List (Op O)), (∀ op ∈ ops, op.Proper c) → ∀ (s : Sys O) (ws : List (Work O)), Inv c s ws →
      ∃ s', ops.foldlM (Sys.step c) s = .ok s' ∧ Inv c s' (ws ++ allWork ops) := by
    intro ops
    induction ops with
    | nil => intro _ s ws h; exact ⟨s, rfl, by simpa [allWork] using h⟩
    | cons op ops ih =>
      intro hops s ws h
      obtain ⟨s1, h1, hi⟩ := step_inv c s ws h op (hops op (by simp))
      obtain ⟨s2, h2, hj⟩ := ih (fun o ho => hops o (by simp [ho])) s1 _ hi
      refine ⟨s2, ?_, ?_⟩
      · rw [List.foldlM_cons, h1]; exact h2
      · simpa [allWork, List.append_assoc] using hj
  have := key ops hops (Sys.fresh c) [] (inv_fresh c)
  simpa [runOps] using this

/-- **C59** (part). Whatever the scheduler decides and however often the problem is pickled or cloned in between: every evaluation
succeeds, the statistics of the main problem hold each observation met by anyone exactly once, and its counters are the totals.
With `VecGymNE` and normalisation, each actor must evaluate something in each evaluation (see `C59_violated_idle_actor`), and
policies must not be run on the main problem with `update_stats=True` (see `C59_violated_run`). -/
theorem C59_sync_partial (c : Config) (ops : List (Op O)) (hops : ∀ op ∈ ops, op.Proper c) :
    ∃ s, runOps c ops = .ok s ∧
      (c.norm = true → (s.main.obs.getD []).Perm ((allWork ops).flatMap Work.obs)) ∧
      s.main.interactions = ((allWork ops).map Work.steps).sum ∧
      s.main.episodes = ((allWork ops).map Work.episodes).sum := by
  obtain ⟨s, hs, hi⟩ := runOps_inv c ops hops
  exact ⟨s, hs, hi.obs, hi.stp, hi.eps⟩

/-- **C59** (part). When an evaluation starts, each actor normalises with the statistics of everything met in earlier evaluations. -/
theorem C59_actors_start_with_all_partial (c : Config) (hn : c.norm = true) (hpos : 0 < c.numActors) (ops : List (Op O))
    (hops : ∀ op ∈ ops, op.Proper c) :
    ∃ s, runOps c ops = .ok s ∧ ∃ as, (s.parallelize c).actors = some as ∧ as.length = c.numActors ∧
      ∀ a ∈ as, ((a.receive c (s.parallelize c).main.obs).obs.getD []).Perm ((allWork ops).flatMap Work.obs) := by
  obtain ⟨s, hs, hi⟩ := runOps_inv c ops hops
  obtain ⟨hp, hsome⟩ := parallelize_inv c s _ hi
  cases ha : (s.parallelize c).actors with
  | none => exact absurd ha (hsome hpos)
  | some as =>
    refine ⟨s, hs, as, ha, (hp.acts hpos as ha).1, ?_⟩
    intro a _
    simp only [Prob.receive, hn, if_true]
    exact hp.obs hn

/-- Two actors, three evaluations of which one leaves an actor idle, and a clone in between. -/
def exampleOps : List (Op Nat) :=
  [.evaluate [(0, ⟨[1, 2], 1, 1⟩), (1, ⟨[3], 1, 1⟩)], .clone, .evaluate [(1, ⟨[4], 2, 1⟩)], .pickle, .evaluate [(1, ⟨[5], 3, 1⟩), (0, ⟨[6], 4, 1⟩)]]

example : ∀ op ∈ exampleOps, op.Proper { vec := false, norm := true, numActors := 2 } := by
  simp only [exampleOps, List.mem_cons, List.not_mem_nil, or_false, forall_eq_or_imp, forall_eq, Op.Proper]
  refine ⟨⟨fun _ => ⟨by decide, by decide⟩, by simp⟩, trivial, ⟨fun _ => by decide, by simp⟩, trivial, ⟨fun _ => ⟨by decide, by decide⟩, by simp⟩⟩
example : ∀ op ∈ [Op.evaluate [(0, ⟨[1, 2], 1, 1⟩), (1, ⟨[3], 1, 1⟩)], .clone, Op.evaluate [(1, ⟨[5], 3, 1⟩), (0, (⟨[6], 4, 1⟩ : Work Nat))]],
    op.Proper { vec := true, norm := true, numActors := 2 } := by
  intro op hop
  simp only [List.mem_cons, List.not_mem_nil, or_false] at hop
  rcases hop with rfl | rfl | rfl
  · refine ⟨by simp, fun _ _ i hi => ?_⟩
    change i < 2 at hi
    interval_cases i <;> simp
  · trivial
  · refine ⟨by simp, fun _ _ i hi => ?_⟩
    change i < 2 at hi
    interval_cases i <;> simp

/-- **C59 violated.** `run(policy, update_stats=True)` on the main problem before its first evaluation: the observations of that run
are counted once more for each actor, and so are its time steps. -/
theorem C59_violated_run (x : O) (n : Nat) (hn : 0 < n) :
    let c : Config := { vec := false, norm := true, numActors := n }
    ∃ s, ((Sys.fresh c).runOnMain c ⟨[x], 1, 1⟩).evaluate c [] = .ok s ∧
      s.main.obs = some (List.replicate (n + 1) x) ∧ s.main.interactions = n := by
  intro c
  have hne : n ≠ 0 := hn.ne'
  have key : ∀ (k : Nat) (l : List O), (List.replicate k ({ obs := some [x], collected := some [x], interactions := 1, episodes := 1 } : Prob O)).foldlM
      (fun s (a : Prob O) => mergeStats s a.collected) (some l) = (.ok (some (l ++ List.replicate k x)) : Except PyErr _) := by
    intro k
    induction k with
    | zero => intro l; simp [pure, Except.pure]
    | succ k ih =>
      intro l
      rw [List.replicate_succ, List.foldlM_cons]
      have := ih (l ++ [x])
      simp only [mergeStats, bind, Except.bind] at this ⊢
      rw [this]
      simp [List.replicate_succ]
  simp only [Sys.evaluate, Sys.parallelize, hne, Sys.runOnMain, Sys.fresh, Prob.fresh, Prob.perform, noStats, c, if_false, if_true, Bool.false_eq_true, Option.isSome,
    Option.getD, List.nil_append, Option.elim, doPieces, gather, Prob.receive, List.map_replicate, key, Except.map]
  refine ⟨_, rfl, ?_, by simp⟩
  rfl

/-- **C59 violated.** ... and after the first evaluation: the next evaluation overwrites the counters of the main problem, so the time
steps of that run are lost. -/
theorem C59_violated_run_after (x : O) :
    let c : Config := { vec := false, norm := true, numActors := 1 }
    ∃ s s' : Sys O, (Sys.fresh c).evaluate c [(0, ⟨[x], 5, 1⟩)] = .ok s ∧ (s.runOnMain c ⟨[x], 7, 1⟩).main.interactions = 12 ∧
      (s.runOnMain c ⟨[x], 7, 1⟩).evaluate c [(0, ⟨[x], 5, 1⟩)] = .ok s' ∧ s'.main.interactions = 10 := by
  exact ⟨_, _, rfl, rfl, rfl, rfl⟩

/-- **C59 violated.** With `VecGymNE`, an actor which is given nothing in an evaluation makes that evaluation fail (here: two actors, one
piece, after an evaluation in which both worked). -/
theorem C59_violated_idle_actor (x y z : O) :
    let c : Config := { vec := true, norm := true, numActors := 2 }
    ∃ s : Sys O, (Sys.fresh c).evaluate c [(0, ⟨[x], 1, 1⟩), (1, ⟨[y], 1, 1⟩)] = .ok s ∧
      s.evaluate c [(0, ⟨[z], 1, 1⟩)] = .error .otherError := by
  exact ⟨_, rfl, rfl⟩

/-- **C59 violated.** `kill_actors` between two evaluations: each of the new actors goes on counting from the total of all actors, so that what was counted before is counted once per actor. -/
theorem C59_violated_kill (n t e u f : Nat) (hn : 0 < n) :
    let c : Config := { vec := false, norm := false, numActors := n }
    ∃ s1 s2 s3 : Sys O, (Sys.fresh c).evaluate c [(0, ⟨[], t, e⟩)] = .ok s1 ∧ s1.main.interactions = t ∧ s1.kill = .ok s2 ∧
      s2.evaluate c [(0, ⟨[], u, f⟩)] = .ok s3 ∧ s3.main.interactions = n * t + u ∧ s3.main.episodes = n * e + f := by
  intro c
  obtain ⟨m, rfl⟩ : ∃ m, n = m + 1 := ⟨n - 1, by omega⟩
  refine ⟨_, _, _, rfl, ?_, rfl, rfl, ?_, ?_⟩
  · simp [c, Sys.fresh, Sys.parallelize, Prob.fresh, Prob.perform, doPieces, List.replicate_succ, Prob.receive]
  · simp [c, Sys.fresh, Sys.parallelize, Prob.fresh, Prob.perform, doPieces, List.replicate_succ, Prob.receive]; ring
  · simp [c, Sys.fresh, Sys.parallelize, Prob.fresh, Prob.perform, doPieces, List.replicate_succ, Prob.receive]; ring

/-- **C59 violated.** If the problem was pickled or cloned some time before `kill_actors`, the new actors go on counting from the counters of that time: what happened since (`u` time steps) is
lost. -/
theorem C59_violated_kill_after_pickle (t u v : Nat) :
    let c : Config := { vec := false, norm := false, numActors := 1 }
    ∃ s1 s2 s3 s4 : Sys O, (Sys.fresh c).evaluate c [(0, ⟨[], t, 1⟩)] = .ok s1 ∧ s1.pickled.evaluate c [(0, ⟨[], u, 1⟩)] = .ok s2 ∧ s2.main.interactions = t + u ∧
      s2.kill = .ok s3 ∧ s3.evaluate c [(0, ⟨[], v, 1⟩)] = .ok s4 ∧ s4.main.interactions = t + v := by
  intro c
  refine ⟨_, _, _, _, rfl, rfl, ?_, rfl, rfl, ?_⟩
  · simp [c, Sys.fresh, Sys.parallelize, Sys.pickled, Prob.fresh, Prob.perform, doPieces, List.replicate_succ, Prob.receive, Prob.pop]
  · simp [c, Sys.fresh, Sys.parallelize, Sys.pickled, Prob.fresh, Prob.perform, doPieces, List.replicate_succ, Prob.receive, Prob.pop]

end EvoTorch.ObsSync
