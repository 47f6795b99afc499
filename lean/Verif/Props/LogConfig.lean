import Verif.Model.LogConfig
import Mathlib.Data.List.Nodup

/-!
C135: the default configuration of the logger.
-/

namespace EvoTorch.LogConfig

/-- No two handlers are the same object. -/
def Distinct (hs : List Handler) : Prop := (hs.map (·.id)).Nodup

/-- Every second element, beginning with the second. -/
def everySecond {α : Type} : List α → List α
  | _ :: b :: r => b :: everySecond r
  | _ => []

theorem eraseP_at (pre rest : List Handler) (a : Handler) (h : Distinct (pre ++ a :: rest)) : removeHandler (pre ++ a :: rest) a = pre ++ rest := by
  unfold removeHandler
  rw [List.eraseP_append_right]
  · simp
  · intro b hb
    unfold Distinct at h
    rw [List.map_append, List.nodup_append] at h
    have := h.2.2 b.id (List.mem_map.2 ⟨b, hb, rfl⟩) a.id (by simp)
    simpa using this

theorem distinct_drop (pre rest : List Handler) (a : Handler) (h : Distinct (pre ++ a :: rest)) : Distinct (pre ++ rest) :=
  List.Nodup.sublist (List.Sublist.map _ (List.Sublist.append_left (List.sublist_cons_self a rest) pre)) h

theorem removeLoop_eq (fuel : ℕ) (pre rest : List Handler) (hf : rest.length < fuel) (h : Distinct (pre ++ rest)) :
    removeLoop fuel pre.length (pre ++ rest) = pre ++ everySecond rest := by
  induction fuel generalizing pre rest with
  | zero => omega
  | succ fuel ih =>
    cases rest with
    | nil => simp [removeLoop, everySecond]
    | cons a rest =>
      simp only [removeLoop]
      rw [List.getElem?_append_right (Nat.le_refl _)]
      simp only [Nat.sub_self, List.getElem?_cons_zero]
      rw [eraseP_at pre rest a h]
      cases rest with
      | nil =>
        cases fuel with
        | zero => simp [removeLoop, everySecond]
        | succ fuel => simp [removeLoop, everySecond]
      | cons b rest =>
        have hd : Distinct (pre ++ [b] ++ rest) := by simpa using distinct_drop pre (b :: rest) a h
        have hl : rest.length < fuel := by simp at hf; omega
        have := ih (pre ++ [b]) rest hl hd
        simpa [everySecond] using this

/-- The line that the default configuration prints for a message of level `l`: INFO or lower to the standard output, WARNING or higher to the standard error. -/
def lineFor (a : Args) (l : ℤ) : Line := (if l < WARNING then .stdout else .stderr, format a)

theorem emit_install (fresh : ℕ) (a : Args) (c : Config) (ha : a.level ≠ 0) (l : ℤ) :
    emit (install fresh a c) l = if l < a.level then [] else
      ((c.own.handlers.filter fun h => h.accepts l).map fun h => (h.stream, h.format)) ++ [lineFor a l] := by
  simp only [emit, install, effectiveLevel, ne_eq, ha, not_false_eq_true, if_true, reached, Bool.false_eq_true, if_false, List.append_nil]
  split
  · rfl
  · simp only [newHandlers, lineFor, List.filter_append, List.map_append]
    congr 1
    by_cases h : l < WARNING
    · have : ¬ WARNING ≤ l := by omega
      simp [h, this]
    · have : WARNING ≤ l := by omega
      simp [h, this]

/-- **C135.** A logger that is not configured is configured as documented: afterwards every message of at least the given level is printed exactly once, on the standard output below
WARNING and on the standard error otherwise, other messages are not printed, and the function itself prints nothing. -/
theorem C135_once (fresh : ℕ) (a : Args) (c : Config) (ha : a.level ≠ 0) (hc : hasHandlers (c.own :: c.ancestors) = false) (ho : c.own.handlers = []) :
    (setConfig fresh a c).2 = [] ∧
    ∀ l, emit (setConfig fresh a c).1 l = if l < a.level then [] else [lineFor a l] := by
  have key : ∀ l, emit (install fresh a c) l = if l < a.level then [] else [lineFor a l] := by
    intro l; rw [emit_install fresh a c ha, ho]; simp
  unfold setConfig
  rw [hc]
  simp only [Bool.and_false, Bool.false_eq_true, if_false]
  split
  · refine ⟨rfl, fun l => ?_⟩
    have : (c.own.handlers.length + 1, c.own.handlers) = (1, []) := by rw [ho]; rfl
    rw [ho]
    simp only [List.length_nil, removeLoop, List.getElem?_nil]
    have h' : ({ c with own := { c.own with handlers := [] } } : Config) = c := by
      obtain ⟨⟨lv, pr, hs⟩, an⟩ := c
      simp only at ho
      rw [ho]
    rw [h']
    exact key l
  · exact ⟨rfl, key⟩

/-- **C135.** The line has the time, the level and the message, the process exactly if asked for, and either the name of the logger or the file and line. -/
theorem C135_format (a : Args) :
    (format a).head? = some .time ∧ (format a).getLast? = some .message ∧ .level ∈ format a ∧
    (.process ∈ format a ↔ a.showProcess = true) ∧ (.file ∈ format a ↔ a.showLineno = true) ∧ (.line ∈ format a ↔ a.showLineno = true) ∧
    (.name ∈ format a ↔ a.showLineno = false) ∧ (format a).Nodup := by
  obtain ⟨l, p, n, o⟩ := a
  cases p <;> cases n <;> simp [format]

/-- **C135.** A logger which has a handler, or propagates to an ancestor that has one, is left as it is unless `override` is given, and a warning is logged through it. -/
theorem C135_already (fresh : ℕ) (a : Args) (c : Config) (ho : a.override = false) (hc : hasHandlers (c.own :: c.ancestors) = true) :
    setConfig fresh a c = (c, emit c WARNING) := by
  simp [setConfig, ho, hc]

/-- **C135.** A logger without a level and without handlers of its own prints what its parent prints. -/
theorem C135_inherited (own parent : Logger) (rest : List Logger) (hl : own.level = 0) (hh : own.handlers = []) (hp : own.propagate = true) (l : ℤ) :
    emit ⟨own, parent :: rest⟩ l = emit ⟨parent, rest⟩ l := by
  have h1 : effectiveLevel (own :: parent :: rest) = effectiveLevel (parent :: rest) := by rw [effectiveLevel]; simp [hl]
  have h2 : reached (own :: parent :: rest) = reached (parent :: rest) := by rw [reached]; simp [hh, hp]
  simp only [emit, h1, h2]

/-- **C135.** Which loggers count as configured: there is a handler on the way up, with propagation up to there. -/
theorem C135_configured (ls : List Logger) :
    hasHandlers ls = true ↔ ∃ pre l post, ls = pre ++ l :: post ∧ l.handlers ≠ [] ∧ ∀ p ∈ pre, p.handlers = [] ∧ p.propagate = true := by
  induction ls with
  | nil => simp [hasHandlers]
  | cons l ls ih =>
    simp only [hasHandlers]
    by_cases h : l.handlers = []
    · simp only [h, ne_eq, not_true_eq_false, if_false]
      by_cases hp : l.propagate = true
      · simp only [hp, if_true]
        rw [ih]
        constructor
        · rintro ⟨pre, m, post, rfl, hm, hall⟩
          refine ⟨l :: pre, m, post, rfl, hm, ?_⟩
          intro p hpm
          rcases List.mem_cons.1 hpm with rfl | hpm
          · exact ⟨h, hp⟩
          · exact hall p hpm
        · rintro ⟨pre, m, post, he, hm, hall⟩
          cases pre with
          | nil => simp only [List.nil_append, List.cons.injEq] at he; exact absurd (he.1 ▸ h) hm
          | cons p pre =>
            simp only [List.cons_append, List.cons.injEq] at he
            exact ⟨pre, m, post, he.2, hm, fun q hq => hall q (by simp [hq])⟩
      · rw [if_neg hp]
        constructor
        · intro h'; cases h'
        · rintro ⟨pre, m, post, he, hm, hall⟩
          cases pre with
          | nil => simp only [List.nil_append, List.cons.injEq] at he; exact absurd (he.1 ▸ h) hm
          | cons p pre =>
            simp only [List.cons_append, List.cons.injEq] at he
            have := (hall p (by simp)).2
            rw [← he.1] at this
            exact absurd this hp
    · simp only [ne_eq, h, not_false_eq_true, if_true, true_iff]
      exact ⟨[], l, ls, rfl, h, by simp⟩

/-- **C135.** What `override=True` really does: every second one of the old handlers stays and goes on printing, in front of the new ones. -/
theorem C135_override (fresh : ℕ) (a : Args) (c : Config) (ha : a.level ≠ 0) (ho : a.override = true) (hd : Distinct c.own.handlers) :
    (setConfig fresh a c).2 = [] ∧ (setConfig fresh a c).1.own.handlers = everySecond c.own.handlers ++ newHandlers fresh a ∧
    (setConfig fresh a c).1.own.propagate = false ∧ (setConfig fresh a c).1.ancestors = c.ancestors ∧
    ∀ l, emit (setConfig fresh a c).1 l = if l < a.level then [] else
      (((everySecond c.own.handlers).filter fun h => h.accepts l).map fun h => (h.stream, h.format)) ++ [lineFor a l] := by
  have hr : removeLoop (c.own.handlers.length + 1) 0 c.own.handlers = everySecond c.own.handlers := by
    simpa using removeLoop_eq (c.own.handlers.length + 1) [] c.own.handlers (by omega) (by simpa using hd)
  have he : setConfig fresh a c = (install fresh a { c with own := { c.own with handlers := everySecond c.own.handlers } }, []) := by
    simp [setConfig, ho, hr]
  rw [he]
  refine ⟨rfl, rfl, rfl, rfl, fun l => ?_⟩
  exact emit_install fresh a _ ha l

/-- **C135 (partial).** Overriding a logger which has at most one handler reconfigures it as documented. Missing: more handlers, see below. -/
theorem C135_override_partial (fresh : ℕ) (a : Args) (c : Config) (ha : a.level ≠ 0) (ho : a.override = true) (hl : c.own.handlers.length ≤ 1) :
    (setConfig fresh a c).2 = [] ∧ ∀ l, emit (setConfig fresh a c).1 l = if l < a.level then [] else [lineFor a l] := by
  have hd : Distinct c.own.handlers := by
    unfold Distinct
    match h : c.own.handlers, hl with
    | [], _ => simp
    | [_], _ => simp
    | _ :: _ :: _, hl => simp at hl
  have he : everySecond c.own.handlers = [] := by
    match h : c.own.handlers, hl with
    | [], _ => rfl
    | [_], _ => rfl
    | _ :: _ :: _, hl => simp at hl
  obtain ⟨h1, -, -, -, h5⟩ := C135_override fresh a c ha ho hd
  refine ⟨h1, fun l => ?_⟩
  rw [h5, he]
  simp

theorem step_handlers (f : ℕ) (a : Args) (ho : a.override = true) (d : Config) (hs : List Handler) (hh : d.own.handlers = hs) (hd : Distinct hs) :
    (setConfig f a d).1.own.handlers = everySecond hs ++ newHandlers f a := by
  have hr : removeLoop (hs.length + 1) 0 hs = everySecond hs := by
    simpa using removeLoop_eq (hs.length + 1) [] hs (by omega) (by simpa using hd)
  simp [setConfig, ho, hr, install, hh]

theorem after_two (fresh : ℕ) (a : Args) (ho : a.override = true) (c : Config) (h0 : c.own.handlers = []) :
    (setConfigs fresh [a, a] c).own.handlers = (newHandlers fresh a).drop 1 ++ newHandlers (fresh + 2) a := by
  simp only [setConfigs]
  rw [step_handlers _ a ho _ _ (step_handlers fresh a ho c [] h0 (by simp [Distinct])) (by simp [Distinct, newHandlers, everySecond])]
  simp [newHandlers, everySecond]

theorem setConfigs_append (fresh : ℕ) (as bs : List Args) (c : Config) : setConfigs fresh (as ++ bs) c = setConfigs (fresh + 2 * as.length) bs (setConfigs fresh as c) := by
  induction as generalizing fresh c with
  | nil => simp [setConfigs]
  | cons a as ih =>
    simp only [List.cons_append, setConfigs]
    rw [ih]
    congr 1
    simp; omega

theorem after_three (fresh n : ℕ) (a : Args) (ho : a.override = true) (c : Config) (h0 : c.own.handlers = []) :
    (setConfigs fresh (List.replicate (n + 3) a) c).own.handlers =
      (newHandlers (fresh + 2 * (n + 1)) a).take 1 ++ newHandlers (fresh + 2 * (n + 2)) a := by
  induction n with
  | zero =>
    rw [show List.replicate (0 + 3) a = [a, a] ++ [a] by rfl, setConfigs_append]
    have := after_two fresh a ho c h0
    generalize setConfigs fresh [a, a] c = d at this
    simp only [setConfigs]
    rw [step_handlers _ a ho _ _ this (by simp [Distinct, newHandlers])]
    simp [newHandlers, everySecond]
  | succ n ih =>
    rw [List.replicate_succ', setConfigs_append]
    simp only [setConfigs]
    rw [step_handlers _ a ho _ _ ih (by simp [Distinct, newHandlers]; omega)]
    simp only [newHandlers, everySecond, List.length_replicate, List.take, List.cons_append, List.nil_append]

theorem setConfigs_own (fresh n : ℕ) (a : Args) (ho : a.override = true) (c : Config) :
    (setConfigs fresh (List.replicate (n + 1) a) c).own.level = a.level ∧ (setConfigs fresh (List.replicate (n + 1) a) c).own.propagate = false := by
  rw [List.replicate_succ', setConfigs_append]
  simp [setConfigs, setConfig, ho, install]

theorem emit_own (c : Config) (l : ℤ) (h0 : c.own.level ≠ 0) (hp : c.own.propagate = false) (hl : c.own.level ≤ l) :
    emit c l = (c.own.handlers.filter fun h => h.accepts l).map fun h => (h.stream, h.format) := by
  have : ¬ l < c.own.level := by omega
  simp [emit, effectiveLevel, h0, reached, hp, this]

/-- **C135 (violated: override).** "The logger will be reconfigured": however often it is called with `override=True`, from the second call on some messages are printed twice - warnings after
the second call, messages below WARNING after any later one. -/
theorem C135_violated_override (fresh n : ℕ) (c : Config) (h0 : c.own.handlers = []) :
    let a : Args := { override := true }
    ∃ l, INFO ≤ l ∧ emit (setConfigs fresh (List.replicate (n + 2) a) c) l = [lineFor a l, lineFor a l] := by
  intro a
  have ho : a.override = true := rfl
  obtain ⟨hv, hp⟩ := setConfigs_own fresh (n + 1) a ho c
  have hlv : (setConfigs fresh (List.replicate (n + 2) a) c).own.level = 20 := hv
  cases n with
  | zero =>
    refine ⟨30, by decide, ?_⟩
    rw [emit_own _ _ (by rw [hlv]; decide) hp (by rw [hlv]; decide)]
    rw [show List.replicate (0 + 2) a = [a, a] by rfl, after_two fresh a ho c h0]
    rfl
  | succ n =>
    refine ⟨20, by decide, ?_⟩
    rw [emit_own _ _ (by rw [hlv]; decide) hp (by rw [hlv]; decide)]
    rw [show n + 1 + 2 = n + 3 by omega, after_three fresh n a ho c h0]
    rfl

/-! ### Examples -/

/-- A fresh process: no handlers anywhere. -/
def exFresh : Config := ⟨⟨0, true, []⟩, [⟨WARNING, true, []⟩]⟩

example : hasHandlers (exFresh.own :: exFresh.ancestors) = false ∧ exFresh.own.handlers = [] := ⟨rfl, rfl⟩

example : emit (setConfig 0 {} exFresh).1 20 = [(.stdout, [.time, .level, .process, .name, .message])] ∧ emit (setConfig 0 {} exFresh).1 40 = [(.stderr, [.time, .level, .process, .name, .message])] ∧
    emit (setConfig 0 {} exFresh).1 10 = [] := by decide

/-- A process in which the root logger has a handler. -/
def exRoot : Config := ⟨⟨0, true, []⟩, [⟨WARNING, true, [⟨7, .other 0, fun _ => true, [.message]⟩]⟩]⟩

example : (setConfig 0 {} exRoot).2 = [(.other 0, [.message])] ∧ hasHandlers (exRoot.own :: exRoot.ancestors) = true := by decide

example : (exRoot.own.handlers.length ≤ 1) ∧ emit (setConfig 0 { override := true } exRoot).1 30 = [(.stderr, [.time, .level, .process, .name, .message])] := by decide

example : Distinct (newHandlers 4 {}) := by simp [Distinct, newHandlers]

end EvoTorch.LogConfig
