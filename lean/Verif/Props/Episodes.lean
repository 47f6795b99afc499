import Verif.Model.Episodes
import Verif.Spec.Episodes
import Mathlib.Data.Rat.Floor
import Mathlib.Tactic.Ring
import Mathlib.Tactic.IntervalCases
import Mathlib.Data.Fin.VecNotation
/-! Properties C64 (episode accounting) and C65 (alive bonus). -/
namespace EvoTorch.Episodes
variable {K : Type} [Field K]

/-- The bonus which a schedule means. -/
def bonusAt (s : Option (Schedule K)) (t : Nat) : K := s.elim 0 fun s => Spec.bonus s.t0 s.t1 s.bonus t

theorem vecBonus_eq (s : Schedule K) (h : s.t0 ≤ s.t1) (t : Nat) : vecBonus s t = Spec.bonus s.t0 s.t1 s.bonus t := by
  unfold vecBonus Spec.bonus
  by_cases h1 : (t : Int) < s.t0
  · have a : ¬ (t : Int) ≥ s.t1 := by omega
    have b : ¬ ((t : Int) ≥ s.t0 ∧ (t : Int) < s.t1) := by omega
    simp only [a, b, h1, if_true, if_false, ite_self, add_zero]
  · by_cases h2 : (t : Int) < s.t1
    · have a : ¬ (t : Int) ≥ s.t1 := by omega
      have b : ((t : Int) ≥ s.t0 ∧ (t : Int) < s.t1) := by omega
      have c : s.t1 > s.t0 := by omega
      simp only [a, b, c, h1, if_true, if_false, zero_add, and_self]
    · have a : (t : Int) ≥ s.t1 := by omega
      simp only [a, h1, h2, and_false, if_true, if_false, ite_self, add_zero]

/-! ### One environment -/

/-- What is gained until the `q`-th end of an episode. -/
def value (bon : Nat → K) (dec : K) : Nat → Nat → List (Step K) → K
  | 0, _, _ => 0
  | _ + 1, _, [] => 0
  | q + 1, t, (r, d) :: rest => (r - dec + bon (t + 1)) + (if d then value bon dec q 0 rest else value bon dec (q + 1) (t + 1) rest)

/-- How many steps are made until the `q`-th end of an episode. -/
def used : Nat → List (Step K) → Nat
  | 0, _ => 0
  | _ + 1, [] => 0
  | q + 1, (_, d) :: rest => 1 + used (if d then q else q + 1) rest

def dones (tr : List (Step K)) : Nat := tr.countP Prod.snd

theorem dones_true (r : K) (tr : List (Step K)) : dones ((r, true) :: tr) = dones tr + 1 := by simp [dones]
theorem dones_false (r : K) (tr : List (Step K)) : dones ((r, false) :: tr) = dones tr := by simp [dones]

def foldEnv (s : Option (Schedule K)) (dec : K) (n : Nat) (sol : Bool) : EnvSt K → Nat → List (Step K) → EnvSt K
  | e, _, [] => e
  | e, k, x :: rest => foldEnv s dec n sol (see (k + 1) (stepEnv s dec n sol e x)) (k + 1) rest

theorem foldEnv_append (s : Option (Schedule K)) (dec : K) (n : Nat) (sol : Bool) : ∀ (a b : List (Step K)) (e : EnvSt K) (k : Nat),
    foldEnv s dec n sol e k (a ++ b) = foldEnv s dec n sol (foldEnv s dec n sol e k a) (k + a.length) b := by
  intro a
  induction a with
  | nil => intro b e k; simp [foldEnv]
  | cons x a ih => intro b e k; simp only [List.cons_append, foldEnv, ih, List.length_cons]; congr 1; omega

theorem fold_inactive (s : Option (Schedule K)) (dec : K) (n : Nat) (sol : Bool) : ∀ (tr : List (Step K)) (e : EnvSt K) (k : Nat),
    e.active = false → (foldEnv s dec n sol e k tr).active = false ∧ (foldEnv s dec n sol e k tr).score = e.score ∧
      (foldEnv s dec n sol e k tr).seen = e.seen := by
  intro tr
  induction tr with
  | nil => intro e k h; simp [foldEnv, h]
  | cons x tr ih =>
    intro e k h
    have h1 : (stepEnv s dec n sol e x).active = false := by simp [stepEnv, h]
    have h2 : (stepEnv s dec n sol e x).score = e.score := by cases s <;> simp [stepEnv, h]
    have h3 : see (k + 1) (stepEnv s dec n sol e x) = stepEnv s dec n sol e x := by simp [see, h1]
    simp only [foldEnv, h3]
    obtain ⟨a, b, c⟩ := ih (stepEnv s dec n sol e x) (k + 1) h1
    exact ⟨a, by rw [b, h2], by rw [c]; rfl⟩

theorem used_pos : ∀ (tr : List (Step K)) (q : Nat), 0 < q → q ≤ dones tr → 0 < used q tr := by
  intro tr
  cases tr with
  | nil => intro q h1 h2; simp [dones] at h2; omega
  | cons x tr => intro q h1 _; obtain ⟨q, rfl⟩ := Nat.exists_eq_succ_of_ne_zero h1.ne'; simp [used]

theorem fold_active (s : Option (Schedule K)) (hs : ∀ s' ∈ s, s'.t0 ≤ s'.t1) (dec : K) (n : Nat) : ∀ (tr : List (Step K)) (e : EnvSt K) (k t : Nat),
    e.active = true → e.eps < n → (s.isSome → e.t = t) →
    (foldEnv s dec n true e k tr).active = decide (dones tr < n - e.eps) ∧
    (foldEnv s dec n true e k tr).score = e.score + value (bonusAt s) dec (n - e.eps) t tr ∧
    (n - e.eps ≤ dones tr → (foldEnv s dec n true e k tr).seen = e.seen ++ List.range' (k + 1) (used (n - e.eps) tr - 1)) := by
  intro tr
  induction tr with
  | nil =>
    intro e k t ha he _
    obtain ⟨q, hq⟩ := Nat.exists_eq_succ_of_ne_zero (Nat.sub_pos_of_lt he).ne'
    refine ⟨by simp [foldEnv, ha, dones, he], by simp [foldEnv, hq, value], ?_⟩
    intro h; simp [dones] at h; omega
  | cons x tr ih =>
    intro e k t ha he ht
    obtain ⟨r, d⟩ := x
    obtain ⟨q, hq⟩ := Nat.exists_eq_succ_of_ne_zero (Nat.sub_pos_of_lt he).ne'
    have hscore : (stepEnv s dec n true e (r, d)).score = e.score + (r - dec + bonusAt s (t + 1)) := by
      cases s with
      | none => simp [stepEnv, ha, bonusAt]
      | some s' =>
        have := ht rfl
        simp only [stepEnv, ha, bonusAt, Option.elim, if_true, Option.isSome, Bool.and_self, this, vecBonus_eq s' (hs s' rfl)]
        ring
    have htime : s.isSome → (stepEnv s dec n true e (r, d)).t = if d then 0 else t + 1 := by
      intro h; simp [stepEnv, ha, h, ht h]
    have heps : (stepEnv s dec n true e (r, d)).eps = if d then e.eps + 1 else e.eps := rfl
    have hact : (stepEnv s dec n true e (r, d)).active = decide ((if d then e.eps + 1 else e.eps) < n) := by simp [stepEnv, ha]
    have hseen : (stepEnv s dec n true e (r, d)).seen = e.seen := rfl
    by_cases hfin : (if d then e.eps + 1 else e.eps) < n
    · -- still active
      have hact' : (stepEnv s dec n true e (r, d)).active = true := by rw [hact]; simpa using hfin
      have hsee : see (k + 1) (stepEnv s dec n true e (r, d)) = { stepEnv s dec n true e (r, d) with seen := e.seen ++ [k + 1] } := by
        simp [see, hact', hseen]
      obtain ⟨b1, b2, b3⟩ := ih (see (k + 1) (stepEnv s dec n true e (r, d))) (k + 1) (if d then 0 else t + 1) (by rw [hsee]; exact hact')
        (by rw [hsee]; exact hfin) (by rw [hsee]; exact htime)
      have e1 : (see (k + 1) (stepEnv s dec n true e (r, d))).eps = if d then e.eps + 1 else e.eps := by rw [hsee]; exact heps
      have e2 : (see (k + 1) (stepEnv s dec n true e (r, d))).score = (stepEnv s dec n true e (r, d)).score := by rw [hsee]
      have e3 : (see (k + 1) (stepEnv s dec n true e (r, d))).seen = e.seen ++ [k + 1] := by rw [hsee]
      rw [e1] at b1 b2 b3
      rw [e2, hscore] at b2
      rw [e3] at b3
      simp only [foldEnv]
      cases d with
      | true =>
        simp only [if_true] at b1 b2 b3 hfin
        have hqq : n - (e.eps + 1) = q := by omega
        rw [hqq] at b1 b2 b3
        refine ⟨?_, ?_, ?_⟩
        · rw [b1, hq, dones_true, decide_eq_decide]; omega
        · rw [b2, hq]; simp [value]; ring
        · intro hd
          have hd' : q ≤ dones tr := by rw [hq] at hd; simpa [dones] using hd
          have hp := used_pos tr q (by omega) hd'
          rw [b3 hd', hq, List.append_assoc]
          congr 1
          obtain ⟨u, hu⟩ := Nat.exists_eq_succ_of_ne_zero hp.ne'
          simp [used, hu, List.range'_succ]
      | false =>
        simp only [Bool.false_eq_true, if_false] at b1 b2 b3 hfin
        rw [hq] at b1 b2 b3
        refine ⟨?_, ?_, ?_⟩
        · rw [b1, hq, dones_false]
        · rw [b2, hq]; simp [value]; ring
        · intro hd
          have hd' : q + 1 ≤ dones tr := by rw [hq] at hd; simpa [dones] using hd
          have hp := used_pos tr (q + 1) (by omega) hd'
          rw [b3 hd', hq, List.append_assoc]
          congr 1
          obtain ⟨u, hu⟩ := Nat.exists_eq_succ_of_ne_zero hp.ne'
          simp [used, hu, List.range'_succ]
    · -- finished
      have hd : d = true := by
        cases d with
        | true => rfl
        | false => simp at hfin; omega
      subst hd
      simp only [if_true] at hfin
      have hq0 : q = 0 := by omega
      subst hq0
      have hact' : (stepEnv s dec n true e (r, true)).active = false := by rw [hact]; simpa using hfin
      have hsee : see (k + 1) (stepEnv s dec n true e (r, true)) = stepEnv s dec n true e (r, true) := by simp [see, hact']
      simp only [foldEnv, hsee]
      obtain ⟨b1, b2, b3⟩ := fold_inactive s dec n true tr _ (k + 1) hact'
      refine ⟨?_, ?_, ?_⟩
      · rw [b1, hq]; simp [dones]
      · rw [b2, hscore, hq]; simp [value]
      · intro _; rw [b3, hseen, hq]; simp [used]

/-! ### Episodes -/

theorem dones_eq : ∀ (tr : List (Step K)) (cur : List K), (Spec.episodesFrom cur tr).length = dones tr := by
  intro tr
  induction tr with
  | nil => intro cur; simp [Spec.episodesFrom, dones]
  | cons x tr ih =>
    intro cur
    obtain ⟨r, d⟩ := x
    cases d
    · have := ih (cur ++ [r]); simpa [Spec.episodesFrom, dones] using this
    · have := ih []; simp only [Spec.episodesFrom, if_true, List.length_cons, this]; simp [dones]

theorem ret_append (bon : Nat → K) (dec : K) (ep : List K) (r : K) :
    Spec.ret bon dec (ep ++ [r]) = Spec.ret bon dec ep + (r - dec + bon (ep.length + 1)) := by
  simp [Spec.ret, List.zipIdx_append, Nat.add_comm]

theorem value_eq (bon : Nat → K) (dec : K) : ∀ (tr : List (Step K)) (cur : List K) (q : Nat), 0 < q → q ≤ dones tr →
    (((Spec.episodesFrom cur tr).take q).map (Spec.ret bon dec)).sum = Spec.ret bon dec cur + value bon dec q cur.length tr ∧
    (((Spec.episodesFrom cur tr).take q).map List.length).sum = cur.length + used q tr := by
  intro tr
  induction tr with
  | nil => intro cur q h1 h2; simp [dones] at h2; omega
  | cons x tr ih =>
    intro cur q h1 h2
    obtain ⟨r, d⟩ := x
    obtain ⟨q, rfl⟩ := Nat.exists_eq_succ_of_ne_zero h1.ne'
    cases d with
    | false =>
      have := ih (cur ++ [r]) (q + 1) h1 (by simpa [dones] using h2)
      simp only [Spec.episodesFrom, Bool.false_eq_true, if_false, value, used]
      rw [this.1, this.2, ret_append]
      constructor
      · simp; ring
      · simp; omega
    | true =>
      simp only [Spec.episodesFrom, if_true, List.take_succ_cons, List.map_cons, List.sum_cons, value, used, ret_append]
      rcases Nat.eq_zero_or_pos q with rfl | hq
      · simp [value, used]
      · have := ih [] q hq (by simpa [dones] using h2)
        rw [this.1, this.2]
        constructor
        · simp [Spec.ret]; ring
        · simp; omega

theorem value_append (bon : Nat → K) (dec : K) : ∀ (a b : List (Step K)) (q t : Nat), q ≤ dones a →
    value bon dec q t (a ++ b) = value bon dec q t a ∧ used q (a ++ b) = used q a := by
  intro a
  induction a with
  | nil => intro b q t h; simp [dones] at h; subst h; simp [value, used]
  | cons x a ih =>
    intro b q t h
    obtain ⟨r, d⟩ := x
    cases q with
    | zero => simp [value, used]
    | succ q =>
      cases d with
      | false =>
        have := ih b (q + 1) (t + 1) (by simpa [dones] using h)
        simp [value, used, this.1, this.2]
      | true =>
        have := ih b q 0 (by simpa [dones] using h)
        simp [value, used, this.1, this.2]

/-! ### The loop -/

/-- The first `k` steps of a trace. -/
def pre (trace : Nat → Step K) (k : Nat) : List (Step K) := (List.range k).map trace

theorem pre_add (trace : Nat → Step K) (a b : Nat) : pre trace (a + b) = pre trace a ++ (List.range b).map fun i => trace (a + i) := by
  simp [pre, List.range_add, List.map_map, Function.comp_def]

theorem dones_mono (trace : Nat → Step K) {a b : Nat} (h : a ≤ b) : dones (pre trace a) ≤ dones (pre trace b) := by
  obtain ⟨c, rfl⟩ := Nat.exists_eq_add_of_le h
  rw [pre_add]; simp [dones]

theorem value_pre (bon : Nat → K) (dec : K) (trace : Nat → Step K) (q a b : Nat) (ha : q ≤ dones (pre trace a)) (hb : q ≤ dones (pre trace b)) :
    value bon dec q 0 (pre trace a) = value bon dec q 0 (pre trace b) ∧ used q (pre trace a) = used q (pre trace b) := by
  rcases Nat.le_total a b with h | h
  · obtain ⟨c, rfl⟩ := Nat.exists_eq_add_of_le h
    rw [pre_add]
    have := value_append bon dec (pre trace a) ((List.range c).map fun i => trace (a + i)) q 0 ha
    exact ⟨this.1.symm, this.2.symm⟩
  · obtain ⟨c, rfl⟩ := Nat.exists_eq_add_of_le h
    rw [pre_add]
    exact value_append bon dec (pre trace b) ((List.range c).map fun i => trace (b + i)) q 0 hb

section
variable {m : Nat} (s : Option (Schedule K)) (dec : K) (n numSolutions : Nat) (trace : Fin m → Nat → Step K)

/-- The data of an environment when the loop is at its `k`-th step. -/
def env (i : Fin m) (k : Nat) : EnvSt K :=
  foldEnv s dec n (decide ((i : Nat) < numSolutions)) (initEnv (decide ((i : Nat) < numSolutions))) 0 (pre (trace i) k)

theorem env_succ (i : Fin m) (k : Nat) : env s dec n numSolutions trace i (k + 1) =
    see (k + 1) (stepEnv s dec n (decide ((i : Nat) < numSolutions)) (env s dec n numSolutions trace i k) (trace i k)) := by
  unfold env
  rw [pre_add, foldEnv_append]
  simp [foldEnv, pre]

theorem see_active (k : Nat) (e : EnvSt K) : (see k e).active = e.active := by unfold see; split <;> rfl

/-- All solutions have finished by step `k`. -/
def AllDone (k : Nat) : Prop := ∀ i : Fin m, (i : Nat) < numSolutions → (env s dec n numSolutions trace i k).active = false

theorem env_nonsol (i : Fin m) (h : ¬ (i : Nat) < numSolutions) (k : Nat) : (env s dec n numSolutions trace i k).active = false ∧
    (env s dec n numSolutions trace i k).seen = [] := by
  unfold env
  have := fold_inactive s dec n (decide ((i : Nat) < numSolutions)) (pre (trace i) k) (initEnv (decide ((i : Nat) < numSolutions)) : EnvSt K) 0
    (by simp [initEnv, see, h])
  exact ⟨this.1, by rw [this.2.2]; simp [initEnv, see, h]⟩

theorem loop_spec : ∀ (c k fuel total : Nat), AllDone s dec n numSolutions trace (k + c + 1) →
    (∀ j, k < j → j ≤ k + c → ¬ AllDone s dec n numSolutions trace j) → c + 1 ≤ fuel →
    loop s dec n numSolutions trace fuel k (fun i => env s dec n numSolutions trace i k) total =
      some (fun i => env s dec n numSolutions trace i (k + c + 1),
        total + ((List.range (c + 1)).map fun j => countActive fun i => env s dec n numSolutions trace i (k + j)).sum) := by
  intro c
  induction c with
  | zero =>
    intro k fuel total hdone _ hf
    obtain ⟨fuel, rfl⟩ := Nat.exists_eq_succ_of_ne_zero (by omega : fuel ≠ 0)
    have hins : ∀ i : Fin m, (stepEnv s dec n (decide ((i : Nat) < numSolutions)) (env s dec n numSolutions trace i k) (trace i k)).active = false := by
      intro i
      by_cases hi : (i : Nat) < numSolutions
      · have := hdone i hi
        rw [Nat.add_zero, env_succ, see_active] at this; exact this
      · have := (env_nonsol s dec n numSolutions trace i hi (k + 1)).1
        rw [env_succ, see_active] at this; exact this
    have hfun : (fun i => env s dec n numSolutions trace i (k + 0 + 1)) = fun i : Fin m =>
        stepEnv s dec n (decide ((i : Nat) < numSolutions)) (env s dec n numSolutions trace i k) (trace i k) := by
      funext i; rw [Nat.add_zero, env_succ]; simp [see, hins i]
    rw [hfun]
    simp only [loop]
    rw [if_pos]
    · simp
    · simp [hins]
  | succ c ih =>
    intro k fuel total hdone hnot hf
    obtain ⟨fuel, rfl⟩ := Nat.exists_eq_succ_of_ne_zero (by omega : fuel ≠ 0)
    have hnd := hnot (k + 1) (by omega) (by omega)
    simp only [loop]
    rw [if_neg]
    · have hfun : (fun i : Fin m => see (k + 1) (stepEnv s dec n (decide ((i : Nat) < numSolutions)) (env s dec n numSolutions trace i k) (trace i k)))
          = fun i => env s dec n numSolutions trace i (k + 1) := by
        funext i; rw [env_succ]
      rw [hfun, ih (k + 1) fuel _ (by rw [show k + 1 + c + 1 = k + (c + 1) + 1 by omega]; exact hdone)
        (fun j h1 h2 => hnot j (by omega) (by omega)) (by omega)]
      congr 1
      rw [List.range_succ_eq_map (n := c + 1)]
      simp only [List.map_cons, List.sum_cons, List.map_map, Function.comp_def, Nat.add_zero, Prod.mk.injEq]
      refine ⟨by funext i; congr 1; omega, ?_⟩
      rw [Nat.add_assoc]
      congr 2
      congr 1
      apply List.map_congr_left
      intro j _
      have : k + 1 + j = k + j.succ := by omega
      simp only [this]
    · intro hall
      apply hnd
      intro i hi
      have := List.all_eq_true.1 hall i (List.mem_finRange i)
      rw [env_succ, see_active]
      simpa [hi] using this

theorem loop_none : ∀ (fuel k total : Nat), (∀ j, k < j → j ≤ k + fuel → ¬ AllDone s dec n numSolutions trace j) →
    loop s dec n numSolutions trace fuel k (fun i => env s dec n numSolutions trace i k) total = none := by
  intro fuel
  induction fuel with
  | zero => intro k total _; rfl
  | succ fuel ih =>
    intro k total hnot
    have hnd := hnot (k + 1) (by omega) (by omega)
    simp only [loop]
    rw [if_neg]
    · have hfun : (fun i : Fin m => see (k + 1) (stepEnv s dec n (decide ((i : Nat) < numSolutions)) (env s dec n numSolutions trace i k) (trace i k)))
          = fun i => env s dec n numSolutions trace i (k + 1) := by
        funext i; rw [env_succ]
      rw [hfun]
      exact ih (k + 1) _ (fun j h1 h2 => hnot j (by omega) (by omega))
    · intro hall
      apply hnd
      intro i hi
      have := List.all_eq_true.1 hall i (List.mem_finRange i)
      rw [env_succ, see_active]
      simpa [hi] using this

theorem seen_length (i : Fin m) : ∀ k, (env s dec n numSolutions trace i k).seen.length =
    ((List.range (k + 1)).map fun j => if (env s dec n numSolutions trace i j).active then 1 else 0).sum := by
  intro k
  induction k with
  | zero =>
    have h0 : env s dec n numSolutions trace i 0 = initEnv (decide ((i : Nat) < numSolutions)) := by simp [env, pre, foldEnv]
    by_cases hi : (i : Nat) < numSolutions <;> simp [h0, initEnv, see, hi]
  | succ k ih =>
    rw [List.range_succ, List.map_append, List.sum_append, ← ih]
    simp only [List.map_cons, List.map_nil, List.sum_singleton]
    rw [env_succ, see_active]
    unfold see
    split <;> simp_all [stepEnv]

variable (hs : ∀ s' ∈ s, s'.t0 ≤ s'.t1) (hn : 1 ≤ n)
include hs hn

theorem env_sol (i : Fin m) (h : (i : Nat) < numSolutions) (k : Nat) :
    (env s dec n numSolutions trace i k).active = decide (dones (pre (trace i) k) < n) ∧
    (env s dec n numSolutions trace i k).score = value (bonusAt s) dec n 0 (pre (trace i) k) ∧
    (n ≤ dones (pre (trace i) k) → (env s dec n numSolutions trace i k).seen = List.range (used n (pre (trace i) k))) := by
  have := fold_active s hs dec n (pre (trace i) k) (initEnv true) 0 0 (by simp [initEnv, see]) (by simp [initEnv, see]; omega) (by simp [initEnv, see])
  simp only [env, h, decide_true]
  have e0 : (initEnv true : EnvSt K).eps = 0 := rfl
  have e1 : (initEnv true : EnvSt K).score = 0 := rfl
  have e2 : (initEnv true : EnvSt K).seen = [0] := rfl
  rw [e0, e1, e2, Nat.sub_zero, zero_add] at this
  refine ⟨this.1, this.2.1, fun hd => ?_⟩
  rw [this.2.2 hd]
  obtain ⟨u, hu⟩ := Nat.exists_eq_succ_of_ne_zero (used_pos _ n hn hd).ne'
  rw [hu, List.range_eq_range', Nat.succ_eq_add_one, List.range'_succ]
  rfl

theorem allDone_iff (k : Nat) : AllDone s dec n numSolutions trace k ↔ ∀ i : Fin m, (i : Nat) < numSolutions → n ≤ dones (pre (trace i) k) := by
  unfold AllDone
  constructor
  · intro h i hi
    have := h i hi
    rw [(env_sol s dec n numSolutions trace hs hn i hi k).1] at this
    simpa using this
  · intro h i hi
    rw [(env_sol s dec n numSolutions trace hs hn i hi k).1]
    simpa using h i hi

end

theorem sum_comm_list {α β : Type} (f : α → β → Nat) (as : List α) (bs : List β) :
    (as.map fun a => (bs.map fun b => f a b).sum).sum = (bs.map fun b => (as.map fun a => f a b).sum).sum := by
  induction as with
  | nil => simp
  | cons a as ih =>
    simp only [List.map_cons, List.sum_cons, ih]
    rw [← List.sum_map_add]

/-- **C64.** If every solution's environment eventually ends `num_episodes` episodes (by step `L`), the evaluation ends. The fitness of
each solution is the average return of exactly its first `num_episodes` episodes, with alive bonus and reward decrease, however long the
other environments run (`L'` is any number of steps by which that solution's environment has completed enough episodes); the
normaliser is shown its observations up to there, each once; and the interaction counter grows by the total length of those
episodes of all the solutions, the episode counter by their number. -/
theorem C64_first_episodes {m : Nat} (s : Option (Schedule K)) (hs : ∀ s' ∈ s, s'.t0 ≤ s'.t1) (dec : K) (n numSolutions : Nat) (hn : 1 ≤ n)
    (_hle : numSolutions ≤ m) (trace : Fin m → Nat → Step K) (L : Nat)
    (hL : ∀ i : Fin m, (i : Nat) < numSolutions → n ≤ (Spec.episodes (pre (trace i) L)).length) :
    ∃ fit total seen, (∀ fuel, L + 1 ≤ fuel → evaluate s dec n numSolutions trace fuel = some (fit, total, numSolutions * n, seen)) ∧
      (∀ (i : Fin m) (L' : Nat), (i : Nat) < numSolutions → n ≤ (Spec.episodes (pre (trace i) L')).length →
        fit i = (((Spec.episodes (pre (trace i) L')).take n).map (Spec.ret (bonusAt s) dec)).sum / n ∧
        seen i = List.range (((Spec.episodes (pre (trace i) L')).take n).map List.length).sum) ∧
      total = ((List.finRange m).map fun i : Fin m => if (i : Nat) < numSolutions then
        (((Spec.episodes (pre (trace i) L)).take n).map List.length).sum else 0).sum := by
  classical
  have hL' : ∀ i : Fin m, (i : Nat) < numSolutions → n ≤ dones (pre (trace i) L) := by
    intro i hi; have := hL i hi; unfold Spec.episodes at this; rwa [dones_eq] at this
  have hmono : ∀ i : Fin m, (i : Nat) < numSolutions → n ≤ dones (pre (trace i) (L + 1)) := fun i hi =>
    (hL' i hi).trans (dones_mono (trace i) (by omega))
  -- the first step at which everything is done
  have hex : ∃ T, 1 ≤ T ∧ AllDone s dec n numSolutions trace T := ⟨L + 1, by omega, (allDone_iff s dec n numSolutions trace hs hn _).2 hmono⟩
  obtain ⟨T, ⟨hT1, hTd⟩, hmin⟩ : ∃ T, (1 ≤ T ∧ AllDone s dec n numSolutions trace T) ∧ ∀ j, 1 ≤ j → j < T → ¬ AllDone s dec n numSolutions trace j := by
    refine ⟨Nat.find hex, Nat.find_spec hex, ?_⟩
    intro j hj hlt hd
    exact Nat.find_min hex hlt ⟨hj, hd⟩
  have hTL : T ≤ L + 1 := by
    by_contra hc
    exact hmin (L + 1) (by omega) (by omega) ((allDone_iff s dec n numSolutions trace hs hn _).2 hmono)
  obtain ⟨c, rfl⟩ : ∃ c, T = c + 1 := ⟨T - 1, by omega⟩
  have hloop : ∀ fuel, L + 1 ≤ fuel → loop s dec n numSolutions trace fuel 0 (fun i => initEnv (decide ((i : Nat) < numSolutions))) 0 =
      some (fun i => env s dec n numSolutions trace i (c + 1),
        ((List.range (c + 1)).map fun j => countActive fun i => env s dec n numSolutions trace i j).sum) := by
    intro fuel hf
    have h := loop_spec s dec n numSolutions trace c 0 fuel 0 (by simpa using hTd) (fun j h1 h2 => hmin j (by omega) (by omega)) (by omega)
    have h0 : (fun i => env s dec n numSolutions trace i 0) = fun i : Fin m => (initEnv (decide ((i : Nat) < numSolutions)) : EnvSt K) := by
      funext i; simp [env, pre, foldEnv]
    rw [h0] at h
    simpa using h
  refine ⟨_, _, _, fun fuel hf => by rw [evaluate, hloop fuel hf]; rfl, ?_, ?_⟩
  · intro i L' hi hL2
    have hd' : n ≤ dones (pre (trace i) L') := by unfold Spec.episodes at hL2; rwa [dones_eq] at hL2
    have hdT : n ≤ dones (pre (trace i) (c + 1)) := (allDone_iff s dec n numSolutions trace hs hn _).1 hTd i hi
    have hv := value_eq (bonusAt s) dec (pre (trace i) L') [] n hn hd'
    have hsol := env_sol s dec n numSolutions trace hs hn i hi (c + 1)
    have hcmp := value_pre (bonusAt s) dec (trace i) n (c + 1) L' hdT hd'
    have e0 : Spec.ret (bonusAt s) dec [] = 0 := by simp [Spec.ret]
    unfold Spec.episodes
    rw [hv.1, hv.2, e0]
    simp only [List.length_nil, zero_add]
    constructor
    · rw [hsol.2.1, hcmp.1]
      by_cases h1 : n > 1
      · simp [h1]
      · have : n = 1 := by omega
        subst this; simp
    · rw [hsol.2.2 hdT, hcmp.2]
  · unfold countActive
    rw [sum_comm_list (fun j i => if (env s dec n numSolutions trace i j).active then 1 else 0)]
    refine congrArg List.sum ?_
    apply List.map_congr_left
    intro i _
    have hlen := seen_length s dec n numSolutions trace i (c + 1)
    rw [List.range_succ, List.map_append, List.sum_append] at hlen
    simp only [List.map_cons, List.map_nil, List.sum_singleton] at hlen
    by_cases hi : (i : Nat) < numSolutions
    · have hdT : n ≤ dones (pre (trace i) (c + 1)) := (allDone_iff s dec n numSolutions trace hs hn _).1 hTd i hi
      have hsol := env_sol s dec n numSolutions trace hs hn i hi (c + 1)
      have hv := value_eq (bonusAt s) dec (pre (trace i) L) [] n hn (hL' i hi)
      have hcmp := value_pre (bonusAt s) dec (trace i) n (c + 1) L hdT (hL' i hi)
      rw [hTd i hi] at hlen
      simp only [Bool.false_eq_true, if_false, Nat.add_zero] at hlen
      simp only [hi, if_true]
      unfold Spec.episodes
      rw [hv.2, ← hlen, hsol.2.2 hdT, hcmp.2]
      simp
    · have hns := env_nonsol s dec n numSolutions trace i hi (c + 1)
      rw [hns.1, hns.2] at hlen
      simp only [Bool.false_eq_true, if_false, Nat.add_zero, List.length_nil] at hlen
      simp only [hi, if_false]
      exact hlen.symm

/-- **C64.** An evaluation cannot end early: if some solution's environment never completes `num_episodes` episodes, it never ends. -/
theorem C64_no_early_end {m : Nat} (s : Option (Schedule K)) (hs : ∀ s' ∈ s, s'.t0 ≤ s'.t1) (dec : K) (n numSolutions : Nat) (hn : 1 ≤ n)
    (trace : Fin m → Nat → Step K) (i : Fin m) (hi : (i : Nat) < numSolutions)
    (hnever : ∀ L, (Spec.episodes (pre (trace i) L)).length < n) (fuel : Nat) : evaluate s dec n numSolutions trace fuel = none := by
  have h := loop_none s dec n numSolutions trace fuel 0 0 (by
    intro j _ _ hd
    have := (allDone_iff s dec n numSolutions trace hs hn j).1 hd i hi
    have h2 := hnever j
    unfold Spec.episodes at h2
    rw [dones_eq] at h2
    omega)
  have h0 : (fun i => env s dec n numSolutions trace i 0) = fun i : Fin m => (initEnv (decide ((i : Nat) < numSolutions)) : EnvSt K) := by
    funext i; simp [env, pre, foldEnv]
  rw [h0] at h
  simp [evaluate, h]

/-- Two environments for the examples: one ends an episode every 2 steps, the other every 3. -/
def exampleTrace : Fin 2 → Nat → Step ℚ := fun i k => ((k : ℚ), decide ((k + 1) % ((i : Nat) + 2) = 0))

example : ∀ i : Fin 2, (i : Nat) < 2 → 2 ≤ (Spec.episodes (pre (exampleTrace i) 6)).length := by decide +kernel
example : (Spec.episodes (pre (exampleTrace 0) 6)).take 2 = [[0, 1], [2, 3]] := by decide +kernel
example : ∀ L, (Spec.episodes (pre (fun _ => ((1 : ℚ), false)) L)).length < 1 := by
  intro L; unfold Spec.episodes; rw [dones_eq]; simp [dones, pre]

/-! ### GymNE and the alive bonus -/

/-- **C65.** With `t0 ≤ t1`, both implementations give the scheduled bonus at each time step `t` of an episode: `VecGymNE` adds it to the
score, the wrapper of `GymNE` adds it to the reward, and its time counter goes on. -/
theorem C65_bonus (s : Schedule K) (h : s.t0 ≤ s.t1) (t : Nat) (reward : K) :
    vecBonus s (t + 1) = Spec.bonus s.t0 s.t1 s.bonus ((t + 1 : Nat) : Int) ∧
    wrapStep s (some t) reward = .ok (some (t + 1), reward + Spec.bonus s.t0 s.t1 s.bonus ((t + 1 : Nat) : Int)) := by
  refine ⟨vecBonus_eq s h _, ?_⟩
  unfold wrapStep Spec.bonus
  by_cases h1 : ((t + 1 : Nat) : Int) < s.t0
  · have a : ¬ ((t + 1 : Nat) : Int) ≥ s.t1 := by omega
    have b : ¬ ((t + 1 : Nat) : Int) ≥ s.t0 := by omega
    simp only [a, b, h1, if_true, if_false, and_false, add_zero]
  · by_cases h2 : ((t + 1 : Nat) : Int) < s.t1
    · have a : ¬ ((t + 1 : Nat) : Int) ≥ s.t1 := by omega
      have b : ((t + 1 : Nat) : Int) ≥ s.t0 := by omega
      have c : s.t1 > s.t0 := by omega
      simp only [a, b, c, h1, h2, if_true, if_false, Option.isSome, and_self, Option.getD]
      rw [mul_comm]
    · have a : ((t + 1 : Nat) : Int) ≥ s.t1 := by omega
      simp only [a, h1, h2, if_true, if_false]

/-- **C65.** The two implementations agree for every schedule, also for one with `t1 < t0` (where the bonus starts at `t1`). -/
theorem C65_any_schedule (s : Schedule K) (t : Nat) (reward : K) :
    wrapStep s (some t) reward = .ok (some (t + 1), reward + vecBonus s (t + 1)) ∧
    (s.t1 < s.t0 → vecBonus s t = if s.t1 ≤ (t : Int) then s.bonus else 0) := by
  constructor
  · by_cases h : s.t0 ≤ s.t1
    · rw [(C65_bonus s h t reward).2, (C65_bonus s h t reward).1]
    · have a : ¬ s.t1 > s.t0 := by omega
      unfold wrapStep vecBonus
      simp only [a, if_false, Option.isSome, Bool.false_eq_true, false_and, add_zero]
      split <;> simp
  · intro h
    have a : ¬ s.t1 > s.t0 := by omega
    simp only [vecBonus, a, if_false, add_zero, ge_iff_le]

/-- **C65.** In every history of resets and steps on the wrapped environment of `GymNE`, the reward of a step is the environment's plus the scheduled bonus of that step's time, counted from the last reset before it;
and until the first reset a step fails. -/
theorem C65_wrapper_history (s : Schedule K) (h : s.t0 ≤ s.t1) (before rewards : List K) (episodes : List (List K)) :
    wrapRun s none (before.map some ++ episodes.flatMap (fun ep => none :: ep.map some) ++ none :: rewards.map some) =
      before.map (fun _ => .error .typeError) ++
        (episodes ++ [rewards]).flatMap (fun ep => ep.zipIdx.map fun p => .ok (p.1 + Spec.bonus s.t0 s.t1 s.bonus ((p.2 + 1 : Nat) : Int))) := by
  have hrun : ∀ (ep : List K) (t : Nat) (rest : List (Option K)), ∃ t', wrapRun s (some t) (ep.map some ++ rest) =
      (ep.zipIdx t).map (fun p => .ok (p.1 + Spec.bonus s.t0 s.t1 s.bonus ((p.2 + 1 : Nat) : Int))) ++ wrapRun s (some t') rest := by
    intro ep
    induction ep with
    | nil => intro t rest; exact ⟨t, rfl⟩
    | cons r ep ih =>
      intro t rest
      obtain ⟨t', ht'⟩ := ih (t + 1) rest
      refine ⟨t', ?_⟩
      simp only [List.map_cons, List.cons_append, wrapRun, (C65_bonus s h t r).2, ht', List.zipIdx_cons]
  have hone : ∀ (ep : List K) (t : Option Nat) (rest : List (Option K)), ∃ t', wrapRun s t (none :: (ep.map some ++ rest)) =
      ep.zipIdx.map (fun p => .ok (p.1 + Spec.bonus s.t0 s.t1 s.bonus ((p.2 + 1 : Nat) : Int))) ++ wrapRun s (some t') rest := by
    intro ep t rest
    simp only [wrapRun, wrapReset]
    exact hrun ep 0 rest
  have hall : ∀ (eps : List (List K)) (t : Option Nat), wrapRun s t (eps.flatMap (fun ep => none :: ep.map some) ++ none :: rewards.map some) =
      (eps ++ [rewards]).flatMap (fun ep => ep.zipIdx.map fun p => .ok (p.1 + Spec.bonus s.t0 s.t1 s.bonus ((p.2 + 1 : Nat) : Int))) := by
    intro eps
    induction eps with
    | nil =>
      intro t
      obtain ⟨t', ht'⟩ := hone rewards t []
      simp only [List.append_nil, wrapRun] at ht'
      simpa [wrapRun] using ht'
    | cons ep eps ih =>
      intro t
      obtain ⟨t', ht'⟩ := hone ep t (eps.flatMap (fun ep => none :: ep.map some) ++ none :: rewards.map some)
      simp only [List.flatMap_cons, List.cons_append, List.append_assoc, ht', ih]
  induction before with
  | nil => simpa using hall episodes none
  | cons r before ih =>
    simp only [List.map_cons, List.cons_append, wrapRun, wrapStep]
    exact congrArg _ ih

/-- One step too early, an episode of two steps, an episode of three. -/
example : wrapRun (⟨1, 3, 4⟩ : Schedule ℚ) none [some 9, none, some 1, some 1, none, some 0, some 0, some 0] = [.error .typeError, .ok 1, .ok 3, .ok 0, .ok 2, .ok 4] := by
  have h := C65_wrapper_history (⟨1, 3, 4⟩ : Schedule ℚ) (by decide) [9] [0, 0, 0] [[1, 1]]
  simp only [List.map, List.flatMap, List.append, List.flatten, Spec.bonus, List.zipIdx] at h
  norm_num at h
  exact h

/-- **C65.** Both problem classes read the `alive_bonus_schedule` argument alike: `(t, b)` means `(t, t, b)`, and other lengths are refused. -/
theorem C65_arguments (t0 t1 : Int) (b : K) :
    Schedule.ofGym [t0] b = .ok ⟨t0, t0, b⟩ ∧ Schedule.ofVec [t0] b = .ok ⟨t0, t0, b⟩ ∧
    Schedule.ofGym [t0, t1] b = .ok ⟨t0, t1, b⟩ ∧ Schedule.ofVec [t0, t1] b = .ok ⟨t0, t1, b⟩ ∧
    (∀ times : List Int, times.length ≠ 1 → times.length ≠ 2 → ∃ e e', Schedule.ofGym times b = .error e ∧ Schedule.ofVec times b = .error e') := by
  refine ⟨rfl, rfl, rfl, rfl, ?_⟩
  intro times h1 h2
  match times with
  | [] => exact ⟨_, _, rfl, rfl⟩
  | [_] => simp at h1
  | [_, _] => simp at h2
  | _ :: _ :: _ :: _ => exact ⟨_, _, rfl, rfl⟩

theorem gymReward_eq (s : Option (Schedule K)) (hs : ∀ s' ∈ s, s'.t0 ≤ s'.t1) (t : Nat) (r : K) :
    gymReward s t r = .ok (r + bonusAt s (t + 1)) := by
  cases s with
  | none => simp [gymReward, bonusAt]
  | some s' => simp [gymReward, bonusAt, (C65_bonus s' (hs s' rfl) t r).2, Except.map]

/-- The trace of one episode: done only at the end. -/
def episodeTrace : List K → List (Step K)
  | [] => []
  | [r] => [(r, true)]
  | r :: r' :: rest => (r, false) :: episodeTrace (r' :: rest)

theorem rollLoop_eq (s : Option (Schedule K)) (hs : ∀ s' ∈ s, s'.t0 ≤ s'.t1) (dec : K) (lim : Option Nat) : ∀ (ep cur : List K) (total : K) (rest : List (Step K)), ep ≠ [] →
    total = Spec.ret (bonusAt s) dec cur → (∀ l ∈ lim, cur.length < max l 1) →
    rollLoop s dec lim cur.length total (episodeTrace ep ++ rest) =
      .ok (some (Spec.ret (bonusAt s) dec ((lim.elim (cur ++ ep) fun l => (cur ++ ep).take (max l 1))), (lim.elim (cur ++ ep) fun l => (cur ++ ep).take (max l 1)).length)) := by
  intro ep
  induction ep with
  | nil => intro _ _ _ h; exact absurd rfl h
  | cons r ep ih =>
    intro cur total rest _ htot hlim
    have hret : total + (r + bonusAt s (cur.length + 1) - dec) = Spec.ret (bonusAt s) dec (cur ++ [r]) := by
      rw [ret_append, htot]; ring
    have hstop : ∀ d : Bool, (d || lim.elim false (fun n => decide (cur.length + 1 ≥ n))) = true →
        (d = true → ep = []) → (lim.elim (cur ++ r :: ep) fun l => (cur ++ r :: ep).take (max l 1)) = cur ++ [r] := by
      intro d hd hdep
      cases lim with
      | none =>
        simp at hd; simp [hdep hd]
      | some l =>
        have hl := hlim l rfl
        simp only [Option.elim] at hd ⊢
        by_cases hle : cur.length + 1 ≥ l
        · have : max l 1 = cur.length + 1 := by omega
          rw [this, List.take_append]
          simp
        · have hdd : d = true := by simpa [hle] using hd
          rw [hdep hdd]
          apply List.take_of_length_le
          simp; omega
    cases ep with
    | nil =>
      simp only [episodeTrace, List.singleton_append, rollLoop, gymReward_eq s hs, Except.bind, Bool.true_or, if_true, hret]
      have := hstop true rfl (fun _ => rfl)
      rw [this]; simp
    | cons r' ep' =>
      simp only [episodeTrace, List.cons_append, rollLoop, gymReward_eq s hs, Except.bind, Bool.false_or, hret]
      by_cases hc : lim.elim false (fun n => decide (cur.length + 1 ≥ n)) = true
      · rw [if_pos hc, hstop false (by simpa using hc) (by simp)]; simp
      · rw [if_neg hc]
        have := ih (cur ++ [r]) _ rest (by simp) rfl (by
          intro l hl
          cases hl
          simp at hc
          simp; omega)
        simpa using this

/-- **C64.** `GymNE` on one episode with rewards `ep`: the return with the same bonus and decrease, cut at `episode_length` steps if given,
and the number of steps counted. -/
theorem C64_gym_rollout (s : Option (Schedule K)) (hs : ∀ s' ∈ s, s'.t0 ≤ s'.t1) (dec : K) (ep : List K) (hep : ep ≠ []) (rest : List (Step K)) (l : Nat) (hl : 1 ≤ l) :
    rollout s dec none (episodeTrace ep ++ rest) = .ok (some (Spec.ret (bonusAt s) dec ep, ep.length)) ∧
    rollout s dec (some l) (episodeTrace ep ++ rest) = .ok (some (Spec.ret (bonusAt s) dec (ep.take l), min l ep.length)) := by
  constructor
  · simpa [rollout] using rollLoop_eq s hs dec none ep [] 0 rest hep (by simp [Spec.ret]) (by simp)
  · have := rollLoop_eq s hs dec (some l) ep [] 0 rest hep (by simp [Spec.ret]) (by simp)
    simpa [rollout, Nat.max_eq_left hl] using this

/-- **C65, C64.** `GymNE` and `VecGymNE` agree: if an environment goes through the episodes `eps` (rewards, none empty), `GymNE.run` with
that many episodes reports the average of the returns which `C64_first_episodes` states for `VecGymNE`. -/
theorem C65_gym_and_vec_agree {m : Nat} (s : Option (Schedule K)) (hs : ∀ s' ∈ s, s'.t0 ≤ s'.t1) (dec : K) (n numSolutions : Nat) (hn : 1 ≤ n)
    (hle : numSolutions ≤ m) (trace : Fin m → Nat → Step K) (L : Nat)
    (hL : ∀ i : Fin m, (i : Nat) < numSolutions → n ≤ (Spec.episodes (pre (trace i) L)).length) (i : Fin m) (hi : (i : Nat) < numSolutions) :
    ∃ fit total eps seen, evaluate s dec n numSolutions trace (L + 1) = some (fit, total, eps, seen) ∧
      run s dec none (((Spec.episodes (pre (trace i) L)).take n).map episodeTrace) = .ok (some (fit i, (seen i).length)) := by
  obtain ⟨fit, total, seen, h1, h2, _⟩ := C64_first_episodes s hs dec n numSolutions hn hle trace L hL
  refine ⟨fit, total, _, seen, h1 (L + 1) le_rfl, ?_⟩
  obtain ⟨h3, h4⟩ := h2 i L hi (hL i hi)
  have hne : ∀ (tr : List (Step K)) (cur : List K), ∀ ep ∈ Spec.episodesFrom cur tr, ep ≠ [] := by
    intro tr
    induction tr with
    | nil => intro cur ep h; simp [Spec.episodesFrom] at h
    | cons x tr ih =>
      intro cur ep h
      obtain ⟨r, d⟩ := x
      cases d with
      | false => exact ih _ ep (by simpa [Spec.episodesFrom] using h)
      | true =>
        simp only [Spec.episodesFrom, if_true, List.mem_cons] at h
        rcases h with rfl | h
        · simp
        · exact ih _ ep h
  generalize hE : (Spec.episodes (pre (trace i) L)).take n = E at h3 h4 ⊢
  have hElen : E.length = n := by rw [← hE, List.length_take]; exact Nat.min_eq_left (hL i hi)
  have hEne : ∀ ep ∈ E, ep ≠ [] := by
    intro ep h; rw [← hE] at h; exact hne _ _ ep (List.mem_of_mem_take h)
  have hmap : ∀ E : List (List K), (∀ ep ∈ E, ep ≠ []) → (E.map episodeTrace).mapM (rollout s dec none) =
      (.ok (E.map fun ep => some (Spec.ret (bonusAt s) dec ep, ep.length)) : Except PyErr _) := by
    intro E
    induction E with
    | nil => intro _; rfl
    | cons ep E ih =>
      intro h
      have := (C64_gym_rollout s hs dec ep (h ep (by simp)) [] 1 le_rfl).1
      rw [List.append_nil] at this
      rw [List.map_cons, List.mapM_cons, this, ih (fun x hx => h x (by simp [hx]))]
      rfl
  have hnone : (E.map fun ep => some (Spec.ret (bonusAt s) dec ep, ep.length)).any Option.isNone = false := by simp
  have hfm : (E.map fun ep => some (Spec.ret (bonusAt s) dec ep, ep.length)).filterMap id = E.map fun ep => (Spec.ret (bonusAt s) dec ep, ep.length) := by
    simp [List.filterMap_map, Function.comp_def]
  have hE0 : (E.map fun ep => (Spec.ret (bonusAt s) dec ep, ep.length)) ≠ [] := by
    intro h
    have : E = [] := by simpa using h
    rw [this] at hElen; simp at hElen; omega
  simp only [run, hmap E hEne, Except.bind, hnone, Bool.false_eq_true, if_false, hfm, hE0]
  rw [h3, h4, List.length_range]
  simp [List.map_map, Function.comp_def, hElen]

example : ∃ s : Schedule ℚ, s.t0 < s.t1 ∧ (vecBonus s 1 = 0 ∧ vecBonus s 5 = 3 / 2 ∧ vecBonus s 6 = 3) :=
  ⟨⟨4, 6, 3⟩, by decide, by
    refine ⟨?_, ?_, ?_⟩ <;> simp [vecBonus]
    norm_num⟩

end EvoTorch.Episodes
