import Verif.Model.ContainerDtype
import Verif.Props.Heap
import Mathlib.Logic.Relation
import Mathlib.Data.List.Basic
/-!
C108: the dtype and the device of a container are those of all tensors in it.
-/
namespace EvoTorch.ContainerDtype
open EvoTorch

variable {D : Type} [DecidableEq D]

/-! ### Specification -/

/-- `b` is in `a`: `a` itself, its contents, their contents, and so on. -/
def In (heap : ℕ → Node D) (a b : ℕ) : Prop := Relation.ReflTransGen (fun a b => b ∈ (heap a).kids) a b

/-- There is a tensor with the label `d` in `a`. -/
def Has (heap : ℕ → Node D) (a : ℕ) (d : D) : Prop := ∃ t, In heap a t ∧ heap t = .tensor d

/-- There is an object of unknown type in `a`. -/
def HasUnknown (heap : ℕ → Node D) (a : ℕ) : Prop := ∃ t, In heap a t ∧ heap t = .unknown

/-- The objects numbered below `n` contain only each other. -/
def Closed (heap : ℕ → Node D) (n : ℕ) : Prop := ∀ a < n, ∀ b ∈ (heap a).kids, b < n

/-! ### Proofs -/

theorem Has.kid {heap : ℕ → Node D} {a b : ℕ} {d : D} (h : b ∈ (heap a).kids) : Has heap b d → Has heap a d := by
  rintro ⟨t, ht, hd⟩
  exact ⟨t, Relation.ReflTransGen.head h ht, hd⟩

def Sound (heap : ℕ → Node D) (V : List (ℕ × Option D)) : Prop := ∀ b d, (b, some d) ∈ V → Has heap b d

/-- What a call (or a loop) guarantees. -/
structure Post (heap : ℕ → Node D) (A roots : List ℕ) (V : List (ℕ × Option D)) (cur r : Option D) (V' : List (ℕ × Option D)) : Prop where
  ext : ∃ N, V' = N ++ V ∧ ∀ p ∈ N, (∀ d, p.2 = some d → r = some d) ∧ (∀ d, heap p.1 = .tensor d → p.2 = some d) ∧ heap p.1 ≠ .unknown ∧
    ∀ c ∈ (heap p.1).kids, c ∈ V'.map Prod.fst ∨ c ∈ A
  keeps : ∀ d, cur = some d → r = some d
  visited : ∀ y ∈ roots, y ∈ V'.map Prod.fst ∨ y ∈ A
  sound : Sound heap V → Sound heap V' ∧ ∀ d, r = some d → cur = some d ∨ ∃ y ∈ roots, Has heap y d

/-- What an error means. -/
def Bad (heap : ℕ → Node D) (cur : Option D) (roots : List ℕ) (e : PyErr) : Prop :=
  (e = .typeError ∧ ∃ y ∈ roots, HasUnknown heap y) ∨
  (e = .valueError ∧ ∃ d d', d ≠ d' ∧ (cur = some d ∨ ∃ y ∈ roots, Has heap y d) ∧ ∃ y ∈ roots, Has heap y d')

theorem update_ok {cur new r : Option D} (h : update cur new = .ok r) :
    (∀ d, cur = some d → r = some d) ∧ (∀ d, new = some d → r = some d) ∧ ∀ d, r = some d → cur = some d ∨ new = some d := by
  unfold update at h
  cases new with
  | none => cases h; exact ⟨fun _ h => h, by simp, fun _ h => Or.inl h⟩
  | some d =>
    cases cur with
    | none => cases h; exact ⟨by simp, fun _ h => h, fun _ h => Or.inr h⟩
    | some c =>
      simp only at h
      split at h
      · cases h
      · rename_i hdc
        cases h
        simp only [ne_eq, Decidable.not_not] at hdc
        subst hdc
        exact ⟨fun _ h => h, fun _ h => h, fun _ h => Or.inl h⟩

theorem update_error {cur new : Option D} {e : PyErr} (h : update cur new = .error e) : e = .valueError ∧ ∃ c d, c ≠ d ∧ cur = some c ∧ new = some d := by
  unfold update at h
  cases new with
  | none => cases h
  | some d =>
    cases cur with
    | none => cases h
    | some c =>
      simp only at h
      split at h
      · rename_i hdc
        cases h
        exact ⟨rfl, c, d, fun h => hdc h.symm, rfl, rfl⟩
      · cases h

theorem loop_post (heap : ℕ → Node D) (A : List ℕ) (f : ℕ → List (ℕ × Option D) → Option (Ret D))
    (hf : ∀ x V r V', f x V = some (.ok (r, V')) → Post heap A [x] V none r V') :
    ∀ l cur V r V', loop f l cur V = some (.ok (r, V')) → Post heap A l V cur r V' := by
  intro l
  induction l with
  | nil =>
    intro cur V r V' h
    simp only [loop, Option.some.injEq, Except.ok.injEq, Prod.mk.injEq] at h
    obtain ⟨rfl, rfl⟩ := h
    exact ⟨⟨[], rfl, by simp⟩, fun _ h => h, by simp, fun h => ⟨h, fun d h => Or.inl h⟩⟩
  | cons x xs ih =>
    intro cur V r V' h
    simp only [loop] at h
    cases hx : f x V with
    | none => rw [hx] at h; cases h
    | some q =>
      rw [hx] at h
      cases q with
      | error e => cases h
      | ok q =>
        obtain ⟨s, V1⟩ := q
        simp only at h
        cases hu : update cur s with
        | error e => rw [hu] at h; cases h
        | ok cur' =>
          rw [hu] at h
          have h1 := hf x V s V1 hx
          have h2 := ih cur' V1 r V' h
          obtain ⟨u1, u2, u3⟩ := update_ok hu
          obtain ⟨N1, e1, p1⟩ := h1.ext
          obtain ⟨N2, e2, p2⟩ := h2.ext
          have hmono : ∀ c, c ∈ V1.map Prod.fst → c ∈ V'.map Prod.fst := by
            intro c hc; rw [e2]; simp only [List.map_append, List.mem_append]; exact Or.inr hc
          refine ⟨⟨N2 ++ N1, by rw [e2, e1, List.append_assoc], ?_⟩, ?_, ?_, ?_⟩
          · intro p hp
            rcases List.mem_append.1 hp with hp | hp
            · exact p2 p hp
            · obtain ⟨a, b, c, d⟩ := p1 p hp
              refine ⟨fun d hd => h2.keeps d (u2 d (a d hd)), b, c, fun k hk => ?_⟩
              rcases d k hk with h | h
              · exact Or.inl (hmono k h)
              · exact Or.inr h
          · intro d hd
            exact h2.keeps d (u1 d hd)
          · intro y hy
            rcases List.mem_cons.1 hy with rfl | hy
            · rcases h1.visited y (by simp) with h | h
              · exact Or.inl (hmono y h)
              · exact Or.inr h
            · exact h2.visited y hy
          · intro hV
            obtain ⟨hV1, hs⟩ := h1.sound hV
            obtain ⟨hV2, hr⟩ := h2.sound hV1
            refine ⟨hV2, fun d hd => ?_⟩
            rcases hr d hd with h | ⟨y, hy, h⟩
            · rcases u3 d h with h | h
              · exact Or.inl h
              · rcases hs d h with h | ⟨y, hy, h⟩
                · cases h
                · exact Or.inr ⟨y, by simp only [List.mem_singleton] at hy; simp [hy], h⟩
            · exact Or.inr ⟨y, List.mem_cons_of_mem _ hy, h⟩

theorem loop_error (heap : ℕ → Node D) (A : List ℕ) (f : ℕ → List (ℕ × Option D) → Option (Ret D))
    (hf : ∀ x V r V', f x V = some (.ok (r, V')) → Post heap A [x] V none r V')
    (he : ∀ x V e, Sound heap V → f x V = some (.error e) → Bad heap none [x] e) :
    ∀ l cur V e, Sound heap V → loop f l cur V = some (.error e) → Bad heap cur l e := by
  intro l
  induction l with
  | nil => intro cur V e hV h; simp [loop] at h
  | cons x xs ih =>
    intro cur V e hV h
    simp only [loop] at h
    cases hx : f x V with
    | none => rw [hx] at h; cases h
    | some q =>
      rw [hx] at h
      cases q with
      | error e' =>
        simp only [Option.some.injEq, Except.error.injEq] at h
        subst h
        rcases he x V _ hV hx with ⟨rfl, y, hy, h⟩ | ⟨rfl, d, d', hd, h, y', hy', h'⟩
        · exact Or.inl ⟨rfl, y, by simp only [List.mem_singleton] at hy; simp [hy], h⟩
        · refine Or.inr ⟨rfl, d, d', hd, ?_, y', by simp only [List.mem_singleton] at hy'; simp [hy'], h'⟩
          rcases h with h | ⟨y, hy, h⟩
          · cases h
          · exact Or.inr ⟨y, by simp only [List.mem_singleton] at hy; simp [hy], h⟩
      | ok q =>
        obtain ⟨s, V1⟩ := q
        simp only at h
        have h1 := hf x V s V1 hx
        obtain ⟨hV1, hs⟩ := h1.sound hV
        have hxs : ∀ d, s = some d → ∃ y ∈ x :: xs, Has heap y d := by
          intro d hd
          rcases hs d hd with h | ⟨y, hy, h⟩
          · cases h
          · exact ⟨y, by simp only [List.mem_singleton] at hy; simp [hy], h⟩
        cases hu : update cur s with
        | error e' =>
          rw [hu] at h
          simp only [Option.some.injEq, Except.error.injEq] at h
          subst h
          obtain ⟨rfl, c, d, hcd, hc, hd⟩ := update_error hu
          exact Or.inr ⟨rfl, c, d, hcd, Or.inl hc, hxs d hd⟩
        | ok cur' =>
          rw [hu] at h
          obtain ⟨-, -, u3⟩ := update_ok hu
          rcases ih cur' V1 e hV1 h with ⟨rfl, y, hy, h⟩ | ⟨rfl, d, d', hd, h, y', hy', h'⟩
          · exact Or.inl ⟨rfl, y, List.mem_cons_of_mem _ hy, h⟩
          · refine Or.inr ⟨rfl, d, d', hd, ?_, y', List.mem_cons_of_mem _ hy', h'⟩
            rcases h with h | ⟨y, hy, h⟩
            · rcases u3 d h with h | h
              · exact Or.inl h
              · exact Or.inr (hxs d h)
            · exact Or.inr ⟨y, List.mem_cons_of_mem _ hy, h⟩

/-- The mapping and the iterable branch are the same. -/
theorem go_container (heap : ℕ → Node D) (fuel x : ℕ) (V : List (ℕ × Option D)) (A : List ℕ) (hl : V.lookup x = none) (hA : x ∉ A)
    (h : ∃ l, heap x = .mapping l ∨ heap x = .iterable l) :
    go heap (fuel + 1) x V A = finish x (loop (fun y v => go heap fuel y v (x :: A)) (heap x).kids none V) := by
  obtain ⟨l, h | h⟩ := h <;> simp only [go, hl, hA, h, if_false, Node.kids]

theorem lookup_mem {V : List (ℕ × Option D)} {x : ℕ} {r : Option D} (h : V.lookup x = some r) : (x, r) ∈ V := by
  induction V with
  | nil => cases h
  | cons p V ih =>
    obtain ⟨a, b⟩ := p
    simp only [List.lookup] at h
    split at h
    · rename_i hx
      cases h
      have : x = a := by simpa using hx
      subst this
      exact List.mem_cons_self
    · exact List.mem_cons_of_mem _ (ih h)

theorem go_post (heap : ℕ → Node D) : ∀ fuel x V A r V', go heap fuel x V A = some (.ok (r, V')) → Post heap A [x] V none r V' := by
  intro fuel
  induction fuel with
  | zero => intro x V A r V' h; cases h
  | succ fuel ih =>
    intro x V A r V' h
    cases hl : V.lookup x with
    | some s =>
      simp only [go, hl, Option.some.injEq, Except.ok.injEq, Prod.mk.injEq] at h
      obtain ⟨rfl, rfl⟩ := h
      have hm := lookup_mem hl
      refine ⟨⟨[], rfl, by simp⟩, by simp, ?_, fun hV => ⟨hV, fun d hd => ?_⟩⟩
      · intro y hy
        simp only [List.mem_singleton] at hy
        subst hy
        exact Or.inl (List.mem_map.2 ⟨_, hm, rfl⟩)
      · subst hd
        exact Or.inr ⟨x, by simp, hV x d hm⟩
    | none =>
      by_cases hA : x ∈ A
      · simp only [go, hl, hA, if_true, Option.some.injEq, Except.ok.injEq, Prod.mk.injEq] at h
        obtain ⟨rfl, rfl⟩ := h
        exact ⟨⟨[], rfl, by simp⟩, by simp, by simpa using Or.inr hA, fun hV => ⟨hV, by simp⟩⟩
      · cases hn : heap x with
        | tensor d =>
          simp only [go, hl, hA, hn, if_false, Option.some.injEq, Except.ok.injEq, Prod.mk.injEq] at h
          obtain ⟨rfl, rfl⟩ := h
          have hx : Has heap x d := ⟨x, Relation.ReflTransGen.refl, hn⟩
          refine ⟨⟨[(x, some d)], rfl, ?_⟩, by simp, by simp, fun hV => ⟨?_, ?_⟩⟩
          · intro p hp
            simp only [List.mem_singleton] at hp
            subst hp
            refine ⟨fun _ h => h, fun d' h' => ?_, by simp [hn], by simp [hn, Node.kids]⟩
            rw [hn] at h'; cases h'; rfl
          · intro b d' hb
            rcases List.mem_cons.1 hb with hb | hb
            · cases hb; exact hx
            · exact hV b d' hb
          · intro d' hd
            cases hd
            exact Or.inr ⟨x, by simp, hx⟩
        | basic =>
          simp only [go, hl, hA, hn, if_false, Option.some.injEq, Except.ok.injEq, Prod.mk.injEq] at h
          obtain ⟨rfl, rfl⟩ := h
          refine ⟨⟨[(x, none)], rfl, ?_⟩, by simp, by simp, fun hV => ⟨?_, by simp⟩⟩
          · intro p hp
            simp only [List.mem_singleton] at hp
            subst hp
            exact ⟨by simp, by simp [hn], by simp [hn], by simp [hn, Node.kids]⟩
          · intro b d' hb
            rcases List.mem_cons.1 hb with hb | hb
            · cases hb
            · exact hV b d' hb
        | unknown => simp [go, hl, hA, hn] at h
        | mapping l =>
          rw [go_container heap fuel x V A hl hA ⟨l, Or.inl hn⟩] at h
          exact container_post heap x V A r V' ⟨l, Or.inl hn⟩ _ (ih · · (x :: A)) h
        | iterable l =>
          rw [go_container heap fuel x V A hl hA ⟨l, Or.inr hn⟩] at h
          exact container_post heap x V A r V' ⟨l, Or.inr hn⟩ _ (ih · · (x :: A)) h
where
  container_post (heap : ℕ → Node D) (x : ℕ) (V : List (ℕ × Option D)) (A : List ℕ) (r : Option D) (V' : List (ℕ × Option D))
      (hc : ∃ l, heap x = .mapping l ∨ heap x = .iterable l) (f : ℕ → List (ℕ × Option D) → Option (Ret D))
      (hf : ∀ y W s W', f y W = some (.ok (s, W')) → Post heap (x :: A) [y] W none s W')
      (h : finish x (loop f (heap x).kids none V) = some (.ok (r, V'))) : Post heap A [x] V none r V' := by
    have hxt : ∀ d, heap x ≠ .tensor d := by
      obtain ⟨l, h | h⟩ := hc <;> intro d hd <;> rw [h] at hd <;> cases hd
    have hxu : heap x ≠ .unknown := by
      obtain ⟨l, h | h⟩ := hc <;> intro hd <;> rw [h] at hd <;> cases hd
    cases hr : loop f (heap x).kids none V with
    | none => rw [hr] at h; cases h
    | some q =>
      rw [hr] at h
      cases q with
      | error e => cases h
      | ok q =>
        obtain ⟨s, W⟩ := q
        simp only [finish, Option.some.injEq, Except.ok.injEq, Prod.mk.injEq] at h
        obtain ⟨rfl, rfl⟩ := h
        have hp := loop_post heap (x :: A) f hf _ _ _ _ _ hr
        obtain ⟨N, e, hN⟩ := hp.ext
        have move : ∀ c, c ∈ W.map Prod.fst ∨ c ∈ x :: A → c ∈ ((x, s) :: W).map Prod.fst ∨ c ∈ A := by
          intro c hc
          rcases hc with h | h
          · exact Or.inl (by simp only [List.map_cons, List.mem_cons]; exact Or.inr h)
          · rcases List.mem_cons.1 h with rfl | h
            · exact Or.inl (by simp)
            · exact Or.inr h
        refine ⟨⟨(x, s) :: N, by rw [e]; rfl, ?_⟩, by simp, by simp, fun hV => ?_⟩
        · intro p hpm
          rcases List.mem_cons.1 hpm with rfl | hpm
          · exact ⟨fun _ h => h, fun d hd => absurd hd (hxt d), hxu, fun c hc => move c (hp.visited c hc)⟩
          · obtain ⟨a, b, c, d⟩ := hN p hpm
            exact ⟨a, b, c, fun k hk => move k (d k hk)⟩
        · obtain ⟨hW, hs⟩ := hp.sound hV
          have hx : ∀ d, s = some d → Has heap x d := by
            intro d hd
            rcases hs d hd with h | ⟨y, hy, h⟩
            · cases h
            · exact h.kid hy
          refine ⟨?_, fun d hd => Or.inr ⟨x, by simp, hx d hd⟩⟩
          intro b d hb
          rcases List.mem_cons.1 hb with hb | hb
          · cases hb; exact hx d rfl
          · exact hW b d hb

theorem go_error (heap : ℕ → Node D) : ∀ fuel x V A e, Sound heap V → go heap fuel x V A = some (.error e) → Bad heap none [x] e := by
  intro fuel
  induction fuel with
  | zero => intro x V A e _ h; cases h
  | succ fuel ih =>
    intro x V A e hV h
    cases hl : V.lookup x with
    | some s => simp [go, hl] at h
    | none =>
      by_cases hA : x ∈ A
      · simp [go, hl, hA] at h
      · have key : (∃ l, heap x = .mapping l ∨ heap x = .iterable l) → Bad heap none [x] e := by
          intro hc
          rw [go_container heap fuel x V A hl hA hc] at h
          cases hr : loop (fun y v => go heap fuel y v (x :: A)) (heap x).kids none V with
          | none => rw [hr] at h; cases h
          | some q =>
            rw [hr] at h
            cases q with
            | ok q => cases h
            | error e' =>
              simp only [finish, Option.some.injEq, Except.error.injEq] at h
              subst h
              have hb := loop_error heap (x :: A) _ (fun y W s W' hy => go_post heap fuel y W (x :: A) s W' hy) (fun y W e hW hy => ih y W (x :: A) e hW hy) _ _ _ _ hV hr
              rcases hb with ⟨rfl, y, hy, t, ht, hu⟩ | ⟨rfl, d, d', hd, h, y', hy', h'⟩
              · exact Or.inl ⟨rfl, x, by simp, t, Relation.ReflTransGen.head hy ht, hu⟩
              · refine Or.inr ⟨rfl, d, d', hd, Or.inr ⟨x, by simp, ?_⟩, x, by simp, h'.kid hy'⟩
                rcases h with h | ⟨y, hy, h⟩
                · cases h
                · exact h.kid hy
        cases hn : heap x with
        | tensor d => simp [go, hl, hA, hn] at h
        | basic => simp [go, hl, hA, hn] at h
        | unknown =>
          simp only [go, hl, hA, hn, if_false, Option.some.injEq, Except.error.injEq] at h
          exact Or.inl ⟨h.symm, x, by simp, x, Relation.ReflTransGen.refl, hn⟩
        | mapping l => exact key ⟨l, Or.inl hn⟩
        | iterable l => exact key ⟨l, Or.inr hn⟩

/-! ### Enough fuel -/

theorem loop_some (f : ℕ → List (ℕ × Option D) → Option (Ret D)) (l : List ℕ) (hf : ∀ x ∈ l, ∀ V, f x V ≠ none) : ∀ cur V, loop f l cur V ≠ none := by
  induction l with
  | nil => intro cur V h; cases h
  | cons x xs ih =>
    intro cur V h
    simp only [loop] at h
    cases hx : f x V with
    | none => exact hf x (by simp) V hx
    | some q =>
      rw [hx] at h
      cases q with
      | error e => cases h
      | ok q =>
        obtain ⟨s, W⟩ := q
        simp only at h
        cases hu : update cur s with
        | error e => rw [hu] at h; cases h
        | ok c => rw [hu] at h; exact ih (fun y hy => hf y (List.mem_cons_of_mem _ hy)) c W h

/-- The number of objects which are not being visited. -/
def free (n : ℕ) (A : List ℕ) : ℕ := ((List.range n).filter fun i => i ∉ A).length

theorem free_lt {n x : ℕ} {A : List ℕ} (hx : x < n) (hA : x ∉ A) : free n (x :: A) < free n A := by
  unfold free
  have hsub : ((List.range n).filter fun i => i ∉ x :: A).Sublist ((List.range n).filter fun i => i ∉ A) := by
    apply List.monotone_filter_right
    intro a ha
    simp only [List.mem_cons, not_or, decide_eq_true_eq] at ha ⊢
    exact ha.2
  rcases Nat.lt_or_ge ((List.range n).filter fun i => i ∉ x :: A).length ((List.range n).filter fun i => i ∉ A).length with h | h
  · exact h
  · exfalso
    have heq := hsub.eq_of_length_le h
    have hmem : x ∈ (List.range n).filter fun i => i ∉ A := by simp [hx, hA]
    rw [← heq] at hmem
    simp at hmem

theorem go_some (heap : ℕ → Node D) (n : ℕ) (hc : Closed heap n) : ∀ fuel x V A, x < n → free n A < fuel → go heap fuel x V A ≠ none := by
  intro fuel
  induction fuel with
  | zero => intro x V A _ h; omega
  | succ fuel ih =>
    intro x V A hx hfree h
    cases hl : V.lookup x with
    | some s => simp [go, hl] at h
    | none =>
      by_cases hA : x ∈ A
      · simp [go, hl, hA] at h
      · have key : (∃ l, heap x = .mapping l ∨ heap x = .iterable l) → False := by
          intro hcont
          rw [go_container heap fuel x V A hl hA hcont] at h
          have hlt := free_lt hx hA
          have := loop_some (fun y v => go heap fuel y v (x :: A)) (heap x).kids (fun y hy V => ih y V (x :: A) (hc x hx y hy) (by omega)) none V
          cases hr : loop (fun y v => go heap fuel y v (x :: A)) (heap x).kids none V with
          | none => exact this hr
          | some q =>
            rw [hr] at h
            cases q with
            | error e => cases h
            | ok q => cases h
        cases hn : heap x with
        | tensor d => simp [go, hl, hA, hn] at h
        | basic => simp [go, hl, hA, hn] at h
        | unknown => simp [go, hl, hA, hn] at h
        | mapping l => exact key ⟨l, Or.inl hn⟩
        | iterable l => exact key ⟨l, Or.inr hn⟩

/-! ### The property -/

/-- **C108 (termination).** The traversal ends for every finite object graph, also with shared and circular references. -/
theorem C108_terminates (heap : ℕ → Node D) (n : ℕ) (hc : Closed heap n) (root : ℕ) (hr : root < n) : ∃ r, labelOf heap (n + 1) root = some r := by
  have hfree : free n [] < n + 1 := by
    unfold free
    have := List.length_filter_le (fun i => decide (i ∉ ([] : List ℕ))) (List.range n)
    simp only [List.length_range] at this
    omega
  cases h : go heap (n + 1) root [] [] with
  | none => exact absurd h (go_some heap n hc (n + 1) root [] [] hr hfree)
  | some q => exact ⟨q.map (·.1), by simp [labelOf, h]⟩

theorem sound_nil (heap : ℕ → Node D) : Sound heap [] := by intro b d h; cases h

/-- **C108 (result).** If a dtype (or a device) is returned, it is the one of every tensor in the container, and there is one; if None is returned, there is no tensor. In both cases the container
has no object of unknown type. -/
theorem C108_result (heap : ℕ → Node D) (fuel root : ℕ) (r : Option D) (h : labelOf heap fuel root = some (.ok r)) :
    (∀ d, r = some d → Has heap root d) ∧ (∀ d, Has heap root d → r = some d) ∧ ¬ HasUnknown heap root := by
  unfold labelOf at h
  cases hg : go heap fuel root [] [] with
  | none => rw [hg] at h; cases h
  | some q =>
    rw [hg] at h
    cases q with
    | error e => cases h
    | ok q =>
      obtain ⟨s, V⟩ := q
      simp only [Option.map_some, Except.map, Option.some.injEq, Except.ok.injEq] at h
      subst h
      have hp := go_post heap fuel root [] [] s V hg
      obtain ⟨N, e, hN⟩ := hp.ext
      rw [List.append_nil] at e
      subst e
      -- everything reachable was visited
      have hall : ∀ t, In heap root t → t ∈ V.map Prod.fst := by
        intro t ht
        induction ht with
        | refl => rcases hp.visited root (by simp) with h | h
                  · exact h
                  · cases h
        | tail _ hbc ih =>
          obtain ⟨p, hpV, rfl⟩ := List.mem_map.1 ih
          rcases (hN p hpV).2.2.2 _ hbc with h | h
          · exact h
          · cases h
      refine ⟨fun d hd => ?_, ?_, ?_⟩
      · rcases (hp.sound (sound_nil heap)).2 d hd with h | ⟨y, hy, h⟩
        · cases h
        · simp only [List.mem_singleton] at hy
          exact hy ▸ h
      · rintro d ⟨t, ht, hd⟩
        obtain ⟨p, hpV, rfl⟩ := List.mem_map.1 (hall t ht)
        obtain ⟨a, b, -, -⟩ := hN p hpV
        exact a d (b d hd)
      · rintro ⟨t, ht, hu⟩
        obtain ⟨p, hpV, rfl⟩ := List.mem_map.1 (hall t ht)
        exact (hN p hpV).2.2.1 hu

/-- **C108 (errors).** A ValueError means that there are two tensors with different dtypes (devices) in the container, a TypeError that there is an object of unknown type; there are no other errors. -/
theorem C108_errors (heap : ℕ → Node D) (fuel root : ℕ) (e : PyErr) (h : labelOf heap fuel root = some (.error e)) :
    (e = .typeError ∧ HasUnknown heap root) ∨ (e = .valueError ∧ ∃ d d', d ≠ d' ∧ Has heap root d ∧ Has heap root d') := by
  unfold labelOf at h
  cases hg : go heap fuel root [] [] with
  | none => rw [hg] at h; cases h
  | some q =>
    rw [hg] at h
    cases q with
    | ok q => cases h
    | error e' =>
      simp only [Option.map_some, Except.map, Option.some.injEq, Except.error.injEq] at h
      subst h
      rcases go_error heap fuel root [] [] _ (sound_nil heap) hg with ⟨rfl, y, hy, h⟩ | ⟨rfl, d, d', hd, h, y', hy', h'⟩
      · simp only [List.mem_singleton] at hy
        exact Or.inl ⟨rfl, hy ▸ h⟩
      · refine Or.inr ⟨rfl, d, d', hd, ?_, ?_⟩
        · rcases h with h | ⟨y, hy, h⟩
          · cases h
          · simp only [List.mem_singleton] at hy; exact hy ▸ h
        · simp only [List.mem_singleton] at hy'; exact hy' ▸ h'

/-- **C108.** Together: for a finite object graph, the call succeeds exactly if all objects in the container are of known types and all tensors in it agree. -/
theorem C108_succeeds_iff (heap : ℕ → Node D) (n : ℕ) (hc : Closed heap n) (root : ℕ) (hr : root < n) :
    (∃ r, labelOf heap (n + 1) root = some (.ok r)) ↔ ¬ HasUnknown heap root ∧ ∀ d d', Has heap root d → Has heap root d' → d = d' := by
  constructor
  · rintro ⟨r, h⟩
    obtain ⟨-, h2, h3⟩ := C108_result heap _ root r h
    refine ⟨h3, fun d d' hd hd' => ?_⟩
    have := (h2 d hd).symm.trans (h2 d' hd')
    simpa using this
  · rintro ⟨h1, h2⟩
    obtain ⟨q, hq⟩ := C108_terminates heap n hc root hr
    cases q with
    | ok r => exact ⟨r, hq⟩
    | error e =>
      rcases C108_errors heap _ root e hq with ⟨-, h⟩ | ⟨-, d, d', hd, h, h'⟩
      · exact absurd h h1
      · exact absurd (h2 d d' h h') hd

/-! ### Casting -/

/-- The kind of the copy: tensors are cast, tuples, sets and mappings stay what they are (an immutable mapping becomes a dictionary), other iterables become lists. -/
def castKind {A : Type} (cast : A → A) : Heap.Kind A → Heap.Kind A
  | .tensor d ro => .tensor (cast d) ro
  | .immDict ks => .dict ks
  | .immList => .list
  | .immSet => .list
  | k => k

/-- **C108 (casting).** On any finite object graph (with sharing and cycles, no cycle through a tuple), casting terminates without an error and leaves every existing object as it was. Every path
shows the same contents in the copy as in the original, with the tensors cast; two paths lead to the same object in the copy exactly if they do in the original. -/
theorem C108_cast {A : Type} [DecidableEq A] (cast : A → A) (h0 : List (Heap.Node A)) (v : Heap.Val A) (hc : Heap.Closed h0) (hv : Heap.ValidVal h0 v) (ht : Heap.NoTupleCycle h0)
    (hn : ∀ (p : ℕ) (nd : Heap.Node A) d ro, h0[p]? = some nd → nd.kind = .tensor d ro → nd.kids = []) :
    ∃ h1 v', castTensors cast h0 v = .ok (h1, v') ∧ (∀ i, i < h0.length → h1[i]? = h0[i]?) ∧
      (∀ path, Heap.look h1 v' path = (Heap.look h0 v path).map (Heap.Seen.mapKind (castKind cast))) ∧
      (∀ path1 path2, Heap.follow h1 v' path1 = Heap.follow h1 v' path2 ↔ Heap.follow h0 v path1 = Heap.follow h0 v path2) := by
  have hkeep : ∀ k, castAct cast k = .keep → ∃ d ro, k = .tensor d ro := by
    intro k hk
    cases k with
    | tensor d ro => exact ⟨d, ro, rfl⟩
    | _ => simp [castAct] at hk
  have htens : ∀ d ro, castAct cast (.tensor d ro) = .keep ∨ castAct cast (.tensor d ro) = .copy (.tensor (cast d) ro) false := by
    intro d ro
    simp only [castAct]
    split
    · exact Or.inl rfl
    · exact Or.inr rfl
  have hlate : ∀ (p : ℕ) (nd : Heap.Node A) k, h0[p]? = some nd → castAct cast nd.kind = .late k → ∀ kid ∈ nd.kids, ¬ Heap.Reach h0 kid p := by
    intro p nd k hp hact kid hk
    refine ht p nd hp ?_ kid hk
    cases hkind : nd.kind with
    | tuple => rfl
    | tensor d ro => rw [hkind] at hact; rcases htens d ro with h | h <;> rw [h] at hact <;> cases hact
    | _ => rw [hkind] at hact; simp [castAct] at hact
  have ha : Heap.Accepts (castAct cast) h0 v := by
    intro p nd _ _
    constructor
    · cases nd.kind with
      | tensor d ro => rcases htens d ro with h | h <;> simp [h]
      | _ => simp [castAct]
    · intro k hk
      cases hkind : nd.kind with
      | tensor d ro => rw [hkind] at hk; rcases htens d ro with h | h <;> simp [h] at hk
      | _ => rw [hkind] at hk; simp [castAct] at hk
  obtain ⟨h1, v', memo, hcall, htr, hlen, hold, hmemo, hinj, hcl, hval⟩ := Heap.call_spec (castAct cast) h0 hlate hc v hv ha
  have hd : Heap.Done (castAct cast) h0 h1 memo v v' := ⟨htr, hold, hmemo, hinj, by
    intro p nd _ hnd hk kid hkid c hc
    obtain ⟨d, ro, hkind⟩ := hkeep _ hk
    rw [hn p nd d ro hnd hkind] at hkid
    cases hkid⟩
  refine ⟨h1, v', hcall, hold, ?_, hd.sharing⟩
  intro path
  rw [hd.look path]
  have : (Heap.Seen.mapKind (Heap.kindAfter (castAct cast)) : Heap.Seen A → Heap.Seen A) = Heap.Seen.mapKind (castKind cast) := by
    funext s
    cases s with
    | atom a => rfl
    | obj k n =>
      cases k with
      | tensor d ro =>
        by_cases hcd : cast d = d
        · simp [Heap.Seen.mapKind, Heap.kindAfter, Heap.newKind, castAct, hcd, castKind]
        · simp [Heap.Seen.mapKind, Heap.kindAfter, Heap.newKind, castAct, hcd, castKind]
      | _ => rfl
  rw [this]

/-- A dictionary with a tensor (of contents 7) twice, within a list and a tuple, and a tensor which is not changed. -/
def castSample : List (Heap.Node ℕ) :=
  [⟨.dict [1, 2, 3], [.ref 1, .ref 2, .ref 4]⟩, ⟨.list, [.ref 3]⟩, ⟨.tuple, [.ref 3, .atom 5]⟩, ⟨.tensor 7 false, []⟩, ⟨.tensor 100 false, []⟩]

example : castTensors (fun n => if n < 100 then n + 100 else n) castSample (.ref 0) =
    .ok (castSample ++ [⟨.dict [1, 2, 3], [.ref 6, .ref 9, .ref 4]⟩, ⟨.list, [.ref 7]⟩, ⟨.tensor 107 false, []⟩, ⟨.list, [.ref 7, .atom 5]⟩, ⟨.tuple, [.ref 7, .atom 5]⟩], .ref 5) := by
  decide +kernel

/-! ### Instances -/

/-- A list (0) which contains itself, a dictionary (1) and a number (3); the dictionary holds the list and a tensor (2) of dtype 32. -/
def cyclic : ℕ → Node ℕ := fun i => [.iterable [1, 0, 3], .mapping [0, 2], .tensor 32, .basic].getD i .unknown

example : Closed cyclic 4 := by
  intro a ha b hb
  have : a = 0 ∨ a = 1 ∨ a = 2 ∨ a = 3 := by omega
  rcases this with rfl | rfl | rfl | rfl <;> simp [cyclic, Node.kids] at hb <;> omega

example : (match labelOf cyclic 5 0 with | some (.ok r) => r | _ => none) = some 32 := by decide

/-- The same with a tensor of dtype 64 added. -/
def mixed : ℕ → Node ℕ := fun i => [.iterable [1, 0, 3], .mapping [0, 2], .tensor 32, .tensor 64].getD i .unknown

example : (match labelOf mixed 5 0 with | some (.error e) => e | _ => .otherError) = .valueError := by decide

end EvoTorch.ContainerDtype
