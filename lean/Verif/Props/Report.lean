import Mathlib.Data.List.Nodup
import Mathlib.Data.List.Perm.Basic
import Verif.Model.Report
import Verif.Props.Hook
import Verif.Props.Logger
/-!
C133: what the loggers for scalars report.
-/
namespace EvoTorch.Report
open EvoTorch.Hook (Dict dictGet dictSet dictGet_set KeysNodup)
open EvoTorch.Logger (Logger Due call_due)

/-! ### Specification -/

/-- Values that are scalars for a report: texts, numbers, arrays without dimensions. -/
def Scalar : Val → Prop
  | .text _ => True
  | .num _ => True
  | .array n _ => n = 0
  | .iterable _ => False
  | .solution _ => False

instance : DecidablePred Scalar
  | .text _ => isTrue trivial
  | .num _ => isTrue trivial
  | .array n _ => Nat.decEq n 0
  | .iterable _ => isFalse id
  | .solution _ => isFalse id

/-- The scalar part of a status. -/
def scalarPart (st : Status) : Status := st.filter fun kv => decide (Scalar kv.2)

instance (m : Int) (a : Bool) (t : Nat) : Decidable (Due m a t) := by unfold Due; infer_instance

/-- The reports due in a run: number of the step (counted from the time the logger was attached) and scalar part of the status after it. -/
def reports (interval : Int) (after : Bool) (done : Nat) : List Status → List (Nat × Status)
  | [] => []
  | st :: sts =>
    if Due interval after (done + 1) then (done + 1, scalarPart st) :: reports interval after (done + 1) sts else reports interval after (done + 1) sts

/-! ### C133: the filter -/

theorem dictSet_append (d : Status) (k : Key) (v : Val) (h : k ∉ d.map (·.1)) : dictSet d k v = d ++ [(k, v)] := by
  induction d with
  | nil => rfl
  | cons a d ih =>
    simp only [List.map_cons, List.mem_cons, not_or] at h
    simp [dictSet, Ne.symm h.1, ih h.2]

theorem keep_iff (v : Val) : (!isSequence v && !isSolution v) = decide (Scalar v) := by
  cases v with
  | array n q => by_cases h : n = 0 <;> simp [isSequence, isSolution, Scalar, h]; omega
  | _ => rfl

theorem scalars_aux (st d : Status) (h : KeysNodup (d ++ st)) :
    st.foldl (fun d kv => if !isSequence kv.2 && !isSolution kv.2 then dictSet d kv.1 kv.2 else d) d = d ++ scalarPart st := by
  induction st generalizing d with
  | nil => simp [scalarPart]
  | cons a st ih =>
    have hn : a.1 ∉ d.map (·.1) := by
      intro hm
      have := List.disjoint_of_nodup_append (by simpa [KeysNodup] using h : (d.map (·.1) ++ (a :: st).map (·.1)).Nodup)
      exact this hm (by simp)
    have hsub : KeysNodup (d ++ st) := by
      unfold KeysNodup at h ⊢
      exact h.sublist ((List.sublist_append_of_sublist_right_cons d a st).map _)
    rw [List.foldl_cons, keep_iff]
    by_cases hs : Scalar a.2
    · rw [if_pos (by simpa using hs), dictSet_append _ _ _ hn, ih]
      · simp [scalarPart, hs]
      · simpa using h
    · rw [if_neg (by simpa using hs), ih _ hsub]
      simp [scalarPart, hs]
where
  List.sublist_append_of_sublist_right_cons (d : Status) (a : Key × Val) (st : Status) : (d ++ st).Sublist (d ++ a :: st) :=
    List.Sublist.append_left (List.sublist_cons_self a st) d

/-- What is reported of a status: its scalars, in its order, with their values. -/
theorem C133_filter (st : Status) (h : KeysNodup st) : scalars st = scalarPart st := by
  have := scalars_aux st [] (by simpa using h)
  simpa [scalars] using this

/-! ### C133: which statuses are reported -/

/-- A logger attached to a search makes exactly the reports that are due, in order, each with the scalar part of the status and the number of the step. -/
theorem C133_feed {σ : Type} (log : Nat → Status → σ → Outcome σ Unit) (hlog : ∀ n st s, (log n st s).result = .ok ()) (interval : Int) (after : Bool)
    (hm : interval ≠ 0) (sts : List Status) (hst : ∀ st ∈ sts, KeysNodup st) (done : Nat) (s : σ) :
    let o := feed log ⟨interval, after, done⟩ s sts
    o.result = .ok () ∧ o.state.1 = ⟨interval, after, done + sts.length⟩ ∧
      o.state.2 = (reports interval after done sts).foldl (fun s r => (log r.1 r.2 s).state) s := by
  induction sts generalizing done s with
  | nil => simp [feed, reports]
  | cons st sts ih =>
    obtain ⟨b, hb, hdue⟩ := call_due ⟨interval, after, done⟩ hm
    have hstate : (Logger.call ⟨interval, after, done⟩).state = ⟨interval, after, done + 1⟩ := by
      unfold Logger.call
      simp [hm]
    have hcw : callWith log ⟨interval, after, done⟩ st s =
        if b = true then ⟨(⟨interval, after, done + 1⟩, (log (done + 1) (scalarPart st) s).state), .ok ()⟩ else ⟨(⟨interval, after, done + 1⟩, s), .ok ()⟩ := by
      unfold callWith
      cases b
      · simp [hb, hstate]
      · simp [hb, hstate, C133_filter st (hst st (by simp)), hlog]
    have ih' := fun s' => ih (fun x hx => hst x (by simp [hx])) (done + 1) s'
    simp only at hdue
    have hlen : done + 1 + sts.length = done + (st :: sts).length := by simp; omega
    cases b with
    | false =>
      have hnd : ¬ Due interval after (done + 1) := by rw [← hdue]; simp
      simp only [feed, hcw, reports, hnd, if_false, Bool.false_eq_true]
      rw [← hlen]
      exact ih' s
    | true =>
      have hd : Due interval after (done + 1) := by rw [← hdue]
      simp only [feed, hcw, reports, hd, if_true, List.foldl_cons]
      rw [← hlen]
      exact ih' _

/-- An interval of zero: `ZeroDivisionError` at the first call, and nothing is reported. -/
theorem C133_zero {σ : Type} (log : Nat → Status → σ → Outcome σ Unit) (after : Bool) (done : Nat) (s : σ) (st : Status) (sts : List Status) :
    (feed log ⟨0, after, done⟩ s (st :: sts)).result = .error .zeroDivisionError ∧ (feed log ⟨0, after, done⟩ s (st :: sts)).state.2 = s := by
  simp [feed, callWith, Logger.call]

/-! ### C133: services -/

/-- MLflow receives every reported scalar once, in order, under the number of the step it belongs to, whether or not reporting begins after the first step. -/
theorem C133_mlflow (runId : Option Nat) (interval : Int) (after : Bool) (hm : interval ≠ 0) (sts : List Status) (hst : ∀ st ∈ sts, KeysNodup st) :
    (feed (mlflow runId) ⟨interval, after, 0⟩ [] sts).result = .ok () ∧
      (feed (mlflow runId) ⟨interval, after, 0⟩ [] sts).state.2 =
        (reports interval after 0 sts).flatMap fun r => r.2.map fun kv => ⟨runId, kv.1, kv.2, r.1⟩ := by
  obtain ⟨h1, -, h3⟩ := C133_feed (mlflow runId) (fun _ _ _ => rfl) interval after hm sts hst 0 []
  refine ⟨h1, ?_⟩
  rw [h3]
  generalize reports interval after 0 sts = rs
  have : ∀ ms : List Metric, rs.foldl (fun s r => (mlflow runId r.1 r.2 s).state) ms = ms ++ rs.flatMap fun r => r.2.map fun kv => ⟨runId, kv.1, kv.2, r.1⟩ := by
    induction rs with
    | nil => simp
    | cons r rs ih => intro ms; rw [List.foldl_cons, ih]; simp [mlflow]
  simpa using this []

/-- A client needs a run, and a run needs a client; a run may be given as such or by its id. -/
theorem C133_mlflow_init (client : Bool) (run : RunArg) :
    (∀ r, mlflowInit client run = .ok r → ((client = false ∧ run = .none ∧ r = none) ∨ (client = true ∧ ∃ i, r = some i ∧ (run = .run i ∨ run = .id i)))) ∧
      (mlflowInit client run = .error .valueError ↔ (client = true ↔ run = .none)) := by
  cases client <;> cases run <;> simp [mlflowInit]

theorem targetKey_inj (g : Option Key) {k k' : Key} (h : targetKey g k = targetKey g k') : k = k' := by
  cases g with
  | none => exact h
  | some g => simpa [targetKey] using h

/-- In Neptune the series of a status key, under its group, has its reported values in order, one per report in which it occurs; no other series is touched. -/
theorem C133_neptune (group : Option Key) (interval : Int) (after : Bool) (hm : interval ≠ 0) (sts : List Status) (hst : ∀ st ∈ sts, KeysNodup st)
    (ser : Key → List Val) :
    let o := feed (neptune group) ⟨interval, after, 0⟩ ser sts
    o.result = .ok () ∧
      (∀ k, o.state.2 (targetKey group k) = ser (targetKey group k) ++ (reports interval after 0 sts).filterMap fun r => dictGet r.2 k) ∧
      (∀ t, (∀ k, t ≠ targetKey group k) → o.state.2 t = ser t) := by
  obtain ⟨h1, -, h3⟩ := C133_feed (neptune group) (fun _ _ _ => rfl) interval after hm sts hst 0 ser
  have hnd : ∀ (done : Nat), ∀ r ∈ reports interval after done sts, KeysNodup r.2 := by
    clear h1 h3
    induction sts with
    | nil => simp [reports]
    | cons st sts ih =>
      intro done r hr
      have hrec : r ∈ reports interval after (done + 1) sts → KeysNodup r.2 := ih (fun x hx => hst x (by simp [hx])) (done + 1) r
      unfold reports at hr
      split at hr
      · rcases List.mem_cons.1 hr with rfl | hr
        · have := hst st (by simp)
          unfold KeysNodup at this ⊢
          exact this.sublist (List.filter_sublist.map _)
        · exact hrec hr
      · exact hrec hr
  have hnd := hnd 0
  have hone : ∀ (st : Status), KeysNodup st → ∀ (ser : Key → List Val) (k : Key),
      (st.foldl (fun (s : Key → List Val) kv => fun k => if k = targetKey group kv.1 then s k ++ [kv.2] else s k) ser) (targetKey group k) =
        ser (targetKey group k) ++ (dictGet st k).toList := by
    intro st
    induction st with
    | nil => intro _ ser k; simp [dictGet]
    | cons a st ih =>
      intro hn ser k
      have hn' : a.1 ∉ st.map (·.1) ∧ KeysNodup st := by simpa [KeysNodup] using hn
      rw [List.foldl_cons, ih hn'.2]
      by_cases hk : k = a.1
      · subst hk
        have hnone : dictGet st a.1 = none := by
          simp only [dictGet, Option.map_eq_none_iff, List.find?_eq_none]
          intro x hx hx'
          exact hn'.1 (by rw [← of_decide_eq_true hx']; exact List.mem_map_of_mem hx)
        rw [hnone]
        simp [dictGet]
      · have hne : targetKey group k ≠ targetKey group a.1 := fun e => hk (targetKey_inj group e)
        simp [hne, dictGet, Ne.symm hk]
  have hother : ∀ (st : Status) (ser : Key → List Val) (t : Key), (∀ k, t ≠ targetKey group k) →
      (st.foldl (fun (s : Key → List Val) kv => fun k => if k = targetKey group kv.1 then s k ++ [kv.2] else s k) ser) t = ser t := by
    intro st
    induction st with
    | nil => intro ser t _; rfl
    | cons a st ih => intro ser t ht; rw [List.foldl_cons, ih _ t ht]; simp [ht a.1]
  intro o
  refine ⟨h1, fun k => ?_, fun t ht => ?_⟩
  · show (feed (neptune group) ⟨interval, after, 0⟩ ser sts).state.2 _ = _
    rw [h3]
    generalize reports interval after 0 sts = rs at hnd
    clear h1 h3 o
    induction rs generalizing ser with
    | nil => simp
    | cons r rs ih =>
      rw [List.foldl_cons, ih _ (fun x hx => hnd x (by simp [hx]))]
      simp only [neptune, hone r.2 (hnd r (by simp)) ser k, List.append_assoc]
      cases hg : dictGet r.2 k <;> simp [hg]
  · show (feed (neptune group) ⟨interval, after, 0⟩ ser sts).state.2 _ = _
    rw [h3]
    generalize reports interval after 0 sts = rs
    clear h1 h3 o hnd
    induction rs generalizing ser with
    | nil => rfl
    | cons r rs ih => rw [List.foldl_cons, ih]; exact hother r.2 ser t ht

theorem foldl_group (group : Option Key) (st d : Status) (hst : KeysNodup (d ++ st.map fun kv => (targetKey group kv.1, kv.2))) :
    st.foldl (fun d kv => dictSet d (targetKey group kv.1) kv.2) d = d ++ st.map fun kv => (targetKey group kv.1, kv.2) := by
  induction st generalizing d with
  | nil => simp
  | cons a st ih =>
    have hn : targetKey group a.1 ∉ d.map (·.1) := by
      intro hm
      have := List.disjoint_of_nodup_append (by simpa [KeysNodup] using hst :
        (d.map (·.1) ++ ((a :: st).map fun kv => (targetKey group kv.1, kv.2)).map (·.1)).Nodup)
      exact this hm (by simp)
    rw [List.foldl_cons, dictSet_append _ _ _ hn, ih]
    · simp
    · simpa using hst

/-- Weights & Biases receives one dictionary per report: the scalars, under their group. -/
theorem C133_wandb (group : Option Key) (interval : Int) (after : Bool) (hm : interval ≠ 0) (sts : List Status) (hst : ∀ st ∈ sts, KeysNodup st) :
    (feed (wandb group) ⟨interval, after, 0⟩ [] sts).result = .ok () ∧
      (feed (wandb group) ⟨interval, after, 0⟩ [] sts).state.2 =
        (reports interval after 0 sts).map fun r => r.2.map fun kv => (targetKey group kv.1, kv.2) := by
  obtain ⟨h1, -, h3⟩ := C133_feed (wandb group) (fun _ _ _ => rfl) interval after hm sts hst 0 []
  refine ⟨h1, ?_⟩
  rw [h3]
  have hnd : ∀ (done : Nat), ∀ r ∈ reports interval after done sts, KeysNodup r.2 := by
    clear h1 h3
    induction sts with
    | nil => simp [reports]
    | cons st sts ih =>
      intro done r hr
      have hrec : r ∈ reports interval after (done + 1) sts → KeysNodup r.2 := ih (fun x hx => hst x (by simp [hx])) (done + 1) r
      unfold reports at hr
      split at hr
      · rcases List.mem_cons.1 hr with rfl | hr
        · have := hst st (by simp)
          unfold KeysNodup at this ⊢
          exact this.sublist (List.filter_sublist.map _)
        · exact hrec hr
      · exact hrec hr
  have hnd := hnd 0
  generalize reports interval after 0 sts = rs at hnd
  have : ∀ ms : List Status, rs.foldl (fun s r => (wandb group r.1 r.2 s).state) ms = ms ++ rs.map fun r => r.2.map fun kv => (targetKey group kv.1, kv.2) := by
    induction rs with
    | nil => simp
    | cons r rs ih =>
      intro ms
      rw [List.foldl_cons, ih (fun x hx => hnd x (by simp [hx]))]
      have hk : KeysNodup ([] ++ r.2.map fun kv => (targetKey group kv.1, kv.2)) := by
        have := hnd r (by simp)
        unfold KeysNodup at this ⊢
        rw [List.nil_append, List.map_map]
        rw [show ((fun x : Key × Val => x.1) ∘ fun kv : Key × Val => (targetKey group kv.1, kv.2)) = targetKey group ∘ (fun x : Key × Val => x.1) from rfl, ← List.map_map]
        exact this.map (fun _ _ e => targetKey_inj group e)
      simp only [wandb]
      rw [foldl_group group r.2 [] hk]
      simp
  simpa using this []

/-- A `sacred` run receives every reported scalar in order; without a result key its result is not touched. -/
theorem C133_sacred (interval : Int) (after : Bool) (hm : interval ≠ 0) (sts : List Status) (hst : ∀ st ∈ sts, KeysNodup st) (res : Option Val) :
    (feed (sacred none) ⟨interval, after, 0⟩ ⟨[], res⟩ sts).result = .ok () ∧
      (feed (sacred none) ⟨interval, after, 0⟩ ⟨[], res⟩ sts).state.2 = ⟨(reports interval after 0 sts).flatMap (·.2), res⟩ := by
  obtain ⟨h1, -, h3⟩ := C133_feed (sacred none) (fun _ _ _ => rfl) interval after hm sts hst 0 ⟨[], res⟩
  refine ⟨h1, ?_⟩
  rw [h3]
  generalize reports interval after 0 sts = rs
  have : ∀ s : Sacred, rs.foldl (fun s r => (sacred none r.1 r.2 s).state) s = ⟨s.logged ++ rs.flatMap (·.2), s.result⟩ := by
    induction rs with
    | nil => simp
    | cons r rs ih => intro s; rw [List.foldl_cons, ih]; simp [sacred]
  simpa using this ⟨[], res⟩

/-- With a result key: the result of the run is the value of that key in the report just made; if the key is not among the reported scalars, the scalars are logged and
then `KeyError` is raised. -/
theorem C133_sacred_result (k : Key) (n : Nat) (st : Status) (hst : KeysNodup st) (s : Sacred) :
    let o := sacred (some k) n (scalars st) s
    o.state.logged = s.logged ++ scalarPart st ∧
      (∀ v, (k, v) ∈ st → Scalar v → o.result = .ok () ∧ o.state.result = some v) ∧
      ((∀ v, (k, v) ∈ st → ¬ Scalar v) → o.result = .error .keyError ∧ o.state.result = s.result) := by
  rw [C133_filter st hst]
  have hk : KeysNodup (scalarPart st) := by
    unfold KeysNodup at hst ⊢
    exact hst.sublist (List.filter_sublist.map _)
  have hget : ∀ v, (k, v) ∈ scalarPart st → dictGet (scalarPart st) k = some v := by
    generalize scalarPart st = d at hk
    intro v hv
    induction d with
    | nil => simp at hv
    | cons a d ih =>
      have hn : a.1 ∉ d.map (·.1) ∧ KeysNodup d := by simpa [KeysNodup] using hk
      rcases List.mem_cons.1 hv with rfl | hv'
      · simp [dictGet]
      · have hne : a.1 ≠ k := fun e => hn.1 (by rw [e]; exact List.mem_map_of_mem (f := (·.1)) hv')
        simpa [dictGet, List.find?_cons, hne] using ih hn.2 hv'
  intro o
  have ho : o = sacred (some k) n (scalarPart st) s := rfl
  unfold sacred at ho
  refine ⟨?_, fun v hv hs => ?_, fun hno => ?_⟩
  · rw [ho]; simp only; split <;> rfl
  · rw [ho]
    simp [hget v (by simp [scalarPart, hv, hs])]
  · have hnone : dictGet (scalarPart st) k = none := by
      simp only [dictGet, Option.map_eq_none_iff, List.find?_eq_none]
      rintro ⟨k', v⟩ hx hx'
      have e : k' = k := of_decide_eq_true hx'
      subst e
      obtain ⟨h1, h2⟩ := List.mem_filter.1 hx
      exact hno v h1 (of_decide_eq_true h2)
    rw [ho]
    simp [hnone]

/-! ### C133: printing -/

theorem le_foldl_max (l : List Nat) (a : Nat) : a ≤ l.foldl max a ∧ ∀ x ∈ l, x ≤ l.foldl max a := by
  induction l generalizing a with
  | nil => simp
  | cons b l ih =>
    obtain ⟨h1, h2⟩ := ih (max a b)
    refine ⟨by simp only [List.foldl_cons]; omega, fun x hx => ?_⟩
    simp only [List.foldl_cons]
    rcases List.mem_cons.1 hx with rfl | hx
    · omega
    · exact h2 x hx

theorem foldl_max_mem (l : List Nat) (a : Nat) : l.foldl max a = a ∨ l.foldl max a ∈ l := by
  induction l generalizing a with
  | nil => simp
  | cons b l ih =>
    rcases ih (max a b) with h | h
    · simp only [List.foldl_cons, h]
      rcases Nat.le_total a b with hab | hab
      · right; simp [Nat.max_eq_right hab]
      · left; simp [Nat.max_eq_left hab]
    · right; simp [h]

theorem get_of_mem (st : Status) (hst : KeysNodup st) (k : Key) (v : Val) : (k, v) ∈ st ↔ dictGet st k = some v := by
  induction st with
  | nil => simp [dictGet]
  | cons a d ih =>
    have hn : a.1 ∉ d.map (·.1) ∧ KeysNodup d := by simpa [KeysNodup] using hst
    by_cases he : a.1 = k
    · subst he
      simp only [dictGet, List.find?_cons, decide_true, Option.map_some, Option.some.injEq, List.mem_cons]
      constructor
      · rintro (h | h)
        · rw [← h]
        · exact absurd (List.mem_map_of_mem (f := (·.1)) h) hn.1
      · rintro rfl
        exact .inl rfl
    · have : dictGet (a :: d) k = dictGet d k := by simp [dictGet, he]
      rw [this, ← ih hn.2]
      simp only [List.mem_cons]
      constructor
      · rintro (h | h)
        · exact absurd (by rw [← h]) he
        · exact h
      · exact .inr

/-- A block printed for a report. Each scalar is printed once: first those among the leading keys, in the order of these keys, then the others in the order of the
status; an empty line ends the block. In every line the key ends, and the colon stands, at the same place: after the longest key. -/
theorem C133_stdout (show' : Val → Key) (leading : List Key) (n : Nat) (st : Status) (out : List Key) (hst : KeysNodup st) (hl : leading.Nodup) (hne : st ≠ []) :
    let o := stdOut show' leading n st out
    o.result = .ok () ∧ ∃ (items : Status) (w : Nat), o.state = out ++ items.map (fun kv => line show' w kv.1 kv.2) ++ [[]] ∧ items.Perm st ∧
      items.map (·.1) = leading.filter (fun k => (st.map (·.1)).contains k) ++ (st.map (·.1)).filter (fun k => !leading.contains k) ∧
      (∀ kv ∈ st, kv.1.length ≤ w) ∧ (∃ kv ∈ st, kv.1.length = w) ∧
      ∀ kv ∈ items, (line show' w kv.1 kv.2).take w = List.replicate (w - kv.1.length) ' ' ++ kv.1 ∧
        (line show' w kv.1 kv.2).drop w = [' ', ':', ' '] ++ show' kv.2 := by
  have hmax := le_foldl_max (st.map fun kv => kv.1.length) 0
  have hle : ∀ kv ∈ st, kv.1.length ≤ (st.map fun kv => kv.1.length).foldl max 0 := fun kv hkv => hmax.2 _ (List.mem_map_of_mem hkv)
  intro o
  have ho : o = stdOut show' leading n st out := rfl
  unfold stdOut at ho
  rw [if_neg hne] at ho
  refine ⟨by rw [ho], leading.filterMap (fun k => (dictGet st k).map fun v => (k, v)) ++ st.filter (fun kv => !leading.contains kv.1),
    (st.map fun kv => kv.1.length).foldl max 0, ?_, ?_, ?_, hle, ?_, ?_⟩
  · rw [ho]
    simp [List.map_filterMap, Function.comp_def]
  · refine (List.perm_ext_iff_of_nodup ?_ ?_).2 ?_
    · refine List.Nodup.append ?_ ?_ ?_
      · refine List.Nodup.of_map (·.1) ?_
        rw [List.map_filterMap]
        have : (leading.filterMap fun x => Option.map (fun x : Key × Val => x.1) ((dictGet st x).map fun v => (x, v))).Sublist leading := by
          clear hl ho o
          induction leading with
          | nil => simp
          | cons a l ih =>
            rw [List.filterMap_cons]
            cases dictGet st a with
            | none => exact .cons _ ih
            | some v => exact .cons_cons _ ih
        exact hl.sublist this
      · exact (List.Nodup.of_map _ hst).filter _
      · intro x hx hx'
        obtain ⟨k, hk, hv⟩ := List.mem_filterMap.1 hx
        obtain ⟨v, -, rfl⟩ := Option.map_eq_some_iff.1 hv
        have := (List.mem_filter.1 hx').2
        simp [hk] at this
    · exact List.Nodup.of_map _ hst
    · rintro ⟨k, v⟩
      rw [List.mem_append, List.mem_filterMap, List.mem_filter, get_of_mem st hst k v]
      constructor
      · rintro (⟨k', hk', h⟩ | ⟨h, -⟩)
        · obtain ⟨v', hv', e⟩ := Option.map_eq_some_iff.1 h
          cases e
          exact hv'
        · exact h
      · intro h
        by_cases hk : k ∈ leading
        · exact .inl ⟨k, hk, by simp [h]⟩
        · exact .inr ⟨h, by simpa using hk⟩
  · rw [List.map_append]
    congr 1
    · rw [List.map_filterMap]
      clear hl ho o
      induction leading with
      | nil => rfl
      | cons a l ih =>
        rw [List.filterMap_cons, List.filter_cons]
        cases hg : dictGet st a with
        | none =>
          have : (st.map (·.1)).contains a = false := by
            simp only [List.contains_eq_mem, decide_eq_false_iff_not, List.mem_map, not_exists, not_and]
            rintro ⟨k, v⟩ hx rfl
            rw [(get_of_mem st hst k v).1 hx] at hg
            cases hg
          simp only [this, Bool.false_eq_true, if_false, Option.map_none]
          exact ih
        | some v =>
          have : (st.map (·.1)).contains a = true := by
            simp only [List.contains_eq_mem, decide_eq_true_eq]
            exact List.mem_map_of_mem (f := (·.1)) ((get_of_mem st hst a v).2 hg)
          simp only [this, if_true, Option.map_some, List.cons.injEq, true_and]
          exact ih
    · rw [List.filter_map]
      rfl
  · rcases foldl_max_mem (st.map fun kv => kv.1.length) 0 with h | h
    · obtain ⟨a, l, rfl⟩ := List.exists_cons_of_ne_nil hne
      have := hle a (by simp)
      rw [h] at this ⊢
      exact ⟨a, by simp, by omega⟩
    · obtain ⟨kv, hkv, e⟩ := List.mem_map.1 h
      exact ⟨kv, hkv, e⟩
  · intro kv hkv
    have hk : kv.1.length ≤ (st.map fun kv => kv.1.length).foldl max 0 := by
      rcases List.mem_append.1 hkv with h | h
      · obtain ⟨k, hk, hv⟩ := List.mem_filterMap.1 h
        obtain ⟨v, hg, rfl⟩ := Option.map_eq_some_iff.1 hv
        exact hle _ ((get_of_mem st hst k v).2 hg)
      · exact hle kv (List.mem_filter.1 h).1
    have hlen : (rjust ((st.map fun kv => kv.1.length).foldl max 0) kv.1).length = (st.map fun kv => kv.1.length).foldl max 0 := by
      simp only [rjust, List.length_append, List.length_replicate]
      omega
    unfold line
    rw [List.append_assoc]
    exact ⟨by rw [List.take_left' hlen]; rfl, by rw [List.drop_left' hlen]⟩

/-- A status without scalars cannot be printed: `ValueError`. -/
theorem C133_stdout_empty (show' : Val → Key) (leading : List Key) (n : Nat) (st : Status) (out : List Key) (hst : KeysNodup st) (h : ∀ kv ∈ st, ¬ Scalar kv.2) :
    (stdOut show' leading n (scalars st) out).result = .error .valueError ∧ (stdOut show' leading n (scalars st) out).state = out := by
  have : scalarPart st = [] := by simpa [scalarPart, List.filter_eq_nil_iff] using fun a b hab => h (a, b) hab
  rw [C133_filter st hst, this]
  simp [stdOut]

/-! ### C133: data frames -/

/-- What happens to a `PandasLogger` and to memory: the search acts, or the logger reports a status. -/
inductive Ev where
  | act (a : Act)
  | log (st : Status)

def runP : List Ev → Pandas → Pandas
  | [], p => p
  | .act a :: evs, p => runP evs { p with mem := act p.mem a }
  | .log st :: evs, p => runP evs (pandas 0 st p).state

/-- The statuses as they read at the moments they were reported. -/
def seen : List Ev → Pandas → List (Dict Key Read)
  | [], _ => []
  | .act a :: evs, p => seen evs { p with mem := act p.mem a }
  | .log st :: evs, p => readStatus p.mem st :: seen evs (pandas 0 st p).state

/-- Every array in a reported status exists at that moment. -/
def Valid : List Ev → Pandas → Prop
  | [], _ => True
  | .act a :: evs, p => Valid evs { p with mem := act p.mem a }
  | .log st :: evs, p => (∀ kv ∈ st, ∀ n q, kv.2 = .array n q → q < p.mem.next) ∧ Valid evs (pandas 0 st p).state

/-- Rows of the logger refer to places of the logger only. -/
def Own (p : Pandas) : Prop :=
  (∀ st ∈ p.data, ∀ kv ∈ st, ∀ n q, kv.2 = .array n q → q ∈ p.mem.owned) ∧ ∀ q ∈ p.mem.owned, q < p.mem.next

theorem read_congr (m m' : Mem) (st : Status) (h : ∀ kv ∈ st, ∀ n q, kv.2 = .array n q → m'.at_ q = m.at_ q) : readStatus m' st = readStatus m st := by
  unfold readStatus
  refine List.map_congr_left fun kv hkv => ?_
  rcases kv with ⟨k, v⟩
  cases v with
  | array n q => simp only [read, h (k, .array n q) hkv n q rfl]
  | _ => rfl

theorem copyVal_spec (v : Val) (m : Mem) (hv : ∀ n q, v = .array n q → q < m.next) (ho : ∀ q ∈ m.owned, q < m.next) :
    let m' := (copyVal m v).1
    (∀ q, q < m.next → m'.at_ q = m.at_ q) ∧ m.next ≤ m'.next ∧ (∀ q ∈ m.owned, q ∈ m'.owned) ∧ (∀ q ∈ m'.owned, q < m'.next) ∧
      (∀ n q, (copyVal m v).2 = .array n q → q ∈ m'.owned ∧ q < m'.next) ∧ read m' (copyVal m v).2 = read m v := by
  cases v with
  | array n q =>
    simp only [copyVal]
    refine ⟨fun q hq => if_neg (by omega), by omega, fun q hq => by simp [hq], fun q hq => ?_, fun n q h => ?_, by simp [read]⟩
    · rcases List.mem_cons.1 hq with rfl | hq
      · omega
      · have := ho q hq; omega
    · cases h; simp
  | _ => exact ⟨fun _ _ => rfl, Nat.le_refl _, fun _ h => h, ho, fun _ _ h => by simp [copyVal] at h, rfl⟩

theorem copy_spec (st : Status) (m : Mem) (hv : ∀ kv ∈ st, ∀ n q, kv.2 = .array n q → q < m.next) (ho : ∀ q ∈ m.owned, q < m.next) :
    let m' := (copyStatus m st).1
    (∀ q, q < m.next → m'.at_ q = m.at_ q) ∧ m.next ≤ m'.next ∧ (∀ q ∈ m.owned, q ∈ m'.owned) ∧ (∀ q ∈ m'.owned, q < m'.next) ∧
      (∀ kv ∈ (copyStatus m st).2, ∀ n q, kv.2 = .array n q → q ∈ m'.owned) ∧
      readStatus m' (copyStatus m st).2 = readStatus m st := by
  induction st generalizing m with
  | nil => exact ⟨fun _ _ => rfl, Nat.le_refl _, fun _ h => h, ho, by simp [copyStatus], rfl⟩
  | cons a st ih =>
    obtain ⟨k, v⟩ := a
    obtain ⟨a1, a2, a3, a4, a5, a6⟩ := copyVal_spec v m (hv (k, v) (by simp)) ho
    obtain ⟨b1, b2, b3, b4, b5, b6⟩ := ih (copyVal m v).1 (fun kv hkv n q e => Nat.lt_of_lt_of_le (hv kv (by simp [hkv]) n q e) a2) a4
    simp only [copyStatus]
    refine ⟨fun q hq => (b1 q (Nat.lt_of_lt_of_le hq a2)).trans (a1 q hq), Nat.le_trans a2 b2, fun q hq => b3 q (a3 q hq), b4, ?_, ?_⟩
    · intro kv hkv n q e
      rcases List.mem_cons.1 hkv with rfl | hkv
      · exact b3 q (a5 n q e).1
      · exact b5 kv hkv n q e
    · have e1 : readStatus m st = readStatus (copyVal m v).1 st :=
        (read_congr m _ st (fun kv hkv n q e => a1 q (hv kv (by simp [hkv]) n q e))).symm
      have e2 : read (copyStatus (copyVal m v).1 st).1 (copyVal m v).2 = read m v := by
        rw [← a6]
        have := read_congr (copyVal m v).1 (copyStatus (copyVal m v).1 st).1 [(k, (copyVal m v).2)]
          (fun kv hkv n q e => by rw [List.mem_singleton.1 hkv] at e; exact b1 q (a5 n q e).2)
        simpa [readStatus] using this
      show (k, _) :: _ = (k, _) :: _
      rw [e2]
      congr 1
      exact b6.trans e1.symm

theorem runP_aux (evs : List Ev) (p : Pandas) (ho : Own p) (hv : Valid evs p) :
    (runP evs p).data.map (readStatus (runP evs p).mem) = p.data.map (readStatus p.mem) ++ seen evs p := by
  induction evs generalizing p with
  | nil => simp [runP, seen]
  | cons ev evs ih =>
    cases ev with
    | act a =>
      have hkeep : p.data.map (readStatus (act p.mem a)) = p.data.map (readStatus p.mem) := by
        refine List.map_congr_left fun st hst => read_congr _ _ st fun kv hkv n q e => ?_
        have hq := ho.1 st hst kv hkv n q e
        cases a with
        | alloc v => exact if_neg (by have := ho.2 q hq; omega)
        | write r v =>
          simp only [act]
          split
          · rfl
          · rename_i hr
            have : q ≠ r := by rintro rfl; exact hr (.inl hq)
            simp [this]
      have ho' : Own { p with mem := act p.mem a } := by
        cases a with
        | alloc v => exact ⟨ho.1, fun q hq => Nat.lt_succ_of_lt (ho.2 q hq)⟩
        | write r v =>
          have h1 : (act p.mem (.write r v)).owned = p.mem.owned := by simp only [act]; split <;> rfl
          have h2 : (act p.mem (.write r v)).next = p.mem.next := by simp only [act]; split <;> rfl
          unfold Own
          simp only [h1, h2]
          exact ho
      have := ih { p with mem := act p.mem a } ho' hv
      simp only [runP, seen]
      rw [this, hkeep]
    | log st =>
      obtain ⟨c1, c2, c3, c4, c5, c6⟩ := copy_spec st p.mem hv.1 ho.2
      have ho' : Own (pandas 0 st p).state := by
        refine ⟨fun st' hst' kv hkv n q e => ?_, c4⟩
        rcases List.mem_append.1 hst' with h | h
        · exact c3 q (ho.1 st' h kv hkv n q e)
        · rw [List.mem_singleton.1 h] at hkv
          exact c5 kv hkv n q e
      simp only [runP, seen]
      rw [ih _ ho' hv.2]
      simp only [pandas, List.map_append, List.map_cons, List.map_nil, c6, List.append_assoc, List.cons_append, List.nil_append]
      congr 1
      refine List.map_congr_left fun st' hst' => read_congr _ _ st' fun kv hkv n q e => ?_
      exact c1 q (ho.2 q (ho.1 st' hst' kv hkv n q e))

/-- The rows of a `PandasLogger` are the statuses as they were when they were reported, whatever the search does to its arrays in between and afterwards. -/
theorem C133_pandas (evs : List Ev) (m : Mem) (hm : m.owned = []) (hv : Valid evs ⟨m, []⟩) :
    (runP evs ⟨m, []⟩).data.map (readStatus (runP evs ⟨m, []⟩).mem) = seen evs ⟨m, []⟩ := by
  have := runP_aux evs ⟨m, []⟩ ⟨by simp, by simp [hm]⟩ hv
  simpa using this

theorem addColumns_spec (r : Dict Key Read) (cols : List Key) (hc : cols.Nodup) :
    (addColumns cols r).Nodup ∧ ∀ k, k ∈ addColumns cols r ↔ k ∈ cols ∨ k ∈ r.map (·.1) := by
  induction r generalizing cols with
  | nil => simp [addColumns, hc]
  | cons a r ih =>
    unfold addColumns
    rw [List.foldl_cons]
    by_cases h : cols.contains a.1 = true
    · rw [if_pos h]
      obtain ⟨h1, h2⟩ := ih cols hc
      refine ⟨h1, fun k => (h2 k).trans ?_⟩
      have : a.1 ∈ cols := by simpa using h
      simp only [List.map_cons, List.mem_cons]
      constructor
      · rintro (h | h)
        · exact .inl h
        · exact .inr (.inr h)
      · rintro (h | rfl | h)
        · exact .inl h
        · exact .inl this
        · exact .inr h
    · rw [if_neg h]
      have hn : a.1 ∉ cols := by simpa using h
      obtain ⟨h1, h2⟩ := ih (cols ++ [a.1]) (by
        rw [List.nodup_append]
        refine ⟨hc, by simp, ?_⟩
        intro x hx y hy e
        rw [List.mem_singleton.1 hy] at e
        exact hn (e ▸ hx))
      refine ⟨h1, fun k => (h2 k).trans ?_⟩
      simp only [List.map_cons, List.mem_cons, List.mem_append, List.not_mem_nil, or_false]
      tauto

theorem columns_spec (rows : List (Dict Key Read)) (cols : List Key) (hc : cols.Nodup) :
    (rows.foldl addColumns cols).Nodup ∧ ∀ k, k ∈ rows.foldl addColumns cols ↔ k ∈ cols ∨ ∃ r ∈ rows, k ∈ r.map (·.1) := by
  induction rows generalizing cols with
  | nil => simp [hc]
  | cons r rows ih =>
    obtain ⟨a1, a2⟩ := addColumns_spec r cols hc
    obtain ⟨b1, b2⟩ := ih (addColumns cols r) a1
    refine ⟨b1, fun k => (b2 k).trans ?_⟩
    rw [a2]
    simp only [List.mem_cons, exists_eq_or_imp]
    tauto

/-- The data frame: one column per key that was ever reported, one row per report with its values, and nothing (NaN) where a report did not have the key. -/
theorem C133_frame (p : Pandas) :
    ∃ f, toDataframe p none = .ok (f, none) ∧ f.columns.Nodup ∧
      (∀ k, k ∈ f.columns ↔ ∃ st ∈ p.data, k ∈ st.map (·.1)) ∧
      f.rows = p.data.map fun st => f.columns.map fun k => dictGet (readStatus p.mem st) k := by
  obtain ⟨h1, h2⟩ := columns_spec (p.data.map (readStatus p.mem)) [] (by simp)
  refine ⟨_, rfl, h1, fun k => ?_, ?_⟩
  · refine (h2 k).trans ?_
    simp [readStatus]
  · simp [frame, List.map_map, Function.comp_def]

/-- With an index: the values of that column, one per row; `KeyError` exactly if no report had the key, so also, with the default index, before the first report. -/
theorem C133_index (p : Pandas) (c : Key) :
    ((∃ st ∈ p.data, c ∈ st.map (·.1)) → ∃ f, toDataframe p none = .ok (f, none) ∧
      toDataframe p (some c) = .ok (f, some (p.data.map fun st => dictGet (readStatus p.mem st) c))) ∧
      ((∀ st ∈ p.data, c ∉ st.map (·.1)) ↔ toDataframe p (some c) = .error .keyError) := by
  obtain ⟨f, hf, -, hcol, -⟩ := C133_frame p
  have hf' : frame (p.data.map (readStatus p.mem)) = f := by simpa [toDataframe] using hf
  by_cases h : ∃ st ∈ p.data, c ∈ st.map (·.1)
  · have hc : f.columns.contains c = true := by simpa using (hcol c).2 h
    refine ⟨fun _ => ⟨f, hf, ?_⟩, fun hno => ?_, fun he => ?_⟩
    · simp only [toDataframe, hf', hc, if_true, List.map_map, Function.comp_def]
    · obtain ⟨st, hst, hk⟩ := h; exact absurd hk (hno st hst)
    · simp only [toDataframe, hf', hc, if_true] at he; cases he
  · have hc : f.columns.contains c = false := by
      have : c ∉ f.columns := fun hm => h ((hcol c).1 hm)
      simpa using this
    refine ⟨fun h' => absurd h' h, fun _ => ?_, fun _ st hst hk => h ⟨st, hst, hk⟩⟩
    simp only [toDataframe, hf', hc, Bool.false_eq_true, if_false]

/-! ### Non-vacuity -/

def st1 : Status := [("iter".toList, .num 1), ("best".toList, .solution 4), ("mean_eval".toList, .array 0 0), ("center".toList, .array 1 1)]
def st2 : Status := [("iter".toList, .num 2), ("best".toList, .solution 5), ("mean_eval".toList, .array 0 0), ("note".toList, .text "x".toList)]

example : KeysNodup st1 ∧ KeysNodup st2 := by unfold KeysNodup; decide +kernel
example : scalars st1 = [("iter".toList, .num 1), ("mean_eval".toList, .array 0 0)] := by decide +kernel
example : (feed (mlflow (some 9)) ⟨2, true, 0⟩ [] [st1, st1, st2]).state.2 =
    [⟨some 9, "iter".toList, .num 1, 1⟩, ⟨some 9, "mean_eval".toList, .array 0 0, 1⟩, ⟨some 9, "iter".toList, .num 2, 3⟩, ⟨some 9, "mean_eval".toList, .array 0 0, 3⟩,
      ⟨some 9, "note".toList, .text "x".toList, 3⟩] := by decide +kernel
example : (feed (wandb (some "g".toList)) ⟨1, false, 0⟩ [] [st1]).state.2 = [[("g/iter".toList, .num 1), ("g/mean_eval".toList, .array 0 0)]] := by decide +kernel
example : (stdOut (fun _ => ['v']) ["mean_eval".toList, "zzz".toList] 1 (scalars st1) []).state = ["mean_eval : v".toList, "     iter : v".toList, []] := by decide +kernel
def evs : List Ev := [.act (.alloc 10), .log (scalars st1), .act (.write 0 20), .log (scalars st2), .act (.write 0 30)]
def m0 : Mem := ⟨fun _ => 0, 0, []⟩
example : Valid evs ⟨m0, []⟩ := by
  have h1 : scalars st1 = [("iter".toList, .num 1), ("mean_eval".toList, .array 0 0)] := by decide +kernel
  have h2 : scalars st2 = [("iter".toList, .num 2), ("mean_eval".toList, .array 0 0), ("note".toList, .text "x".toList)] := by decide +kernel
  refine ⟨?_, ?_, trivial⟩
  · rw [h1]
    intro kv hkv n q e
    simp only [List.mem_cons, List.not_mem_nil, or_false] at hkv
    rcases hkv with rfl | rfl <;> cases e
    decide
  · rw [h1, h2]
    intro kv hkv n q e
    simp only [List.mem_cons, List.not_mem_nil, or_false] at hkv
    rcases hkv with rfl | rfl | rfl <;> cases e
    decide
example : seen evs ⟨m0, []⟩ = [[("iter".toList, .num 1), ("mean_eval".toList, .num 10)],
    [("iter".toList, .num 2), ("mean_eval".toList, .num 20), ("note".toList, .text "x".toList)]] := by decide +kernel
example : (sacred (some "best".toList) 1 (scalars st1) ⟨[], none⟩).result = .error .keyError := by rfl
example : toDataframe ⟨m0, []⟩ (some "iter".toList) = .error .keyError := by decide +kernel

end EvoTorch.Report
