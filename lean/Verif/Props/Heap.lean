import Verif.Proofs.Heap
import Verif.Spec.Heap
/-!
C36, C37: immutable copies and deep clones of object graphs.
-/
namespace EvoTorch.Heap
variable {A : Type}

/-! ### From a renaming of objects to what can be seen -/

theorem forall₂_get {α β : Type} {R : α → β → Prop} {l : List α} {m : List β} (h : List.Forall₂ R l m) (i : Nat) :
    (l[i]? = none ∧ m[i]? = none) ∨ ∃ a b, l[i]? = some a ∧ m[i]? = some b ∧ R a b := by
  induction h generalizing i with
  | nil => left; simp
  | cons hab _ ih =>
    cases i with
    | zero => right; exact ⟨_, _, rfl, rfl, hab⟩
    | succ i => simpa using ih i

/-- Objects that are kept hold only atoms and objects that are kept. -/
def KeptDeep (act : Kind A → Action A) (h : List (Node A)) (v : Val A) : Prop :=
  ∀ (p : Nat) (nd : Node A), Reach h v p → h[p]? = some nd → act nd.kind = .keep →
    ∀ kid ∈ nd.kids, ∀ c, kid = .ref c → ∃ ndc, h[c]? = some ndc ∧ act ndc.kind = .keep

section
variable {act : Kind A → Action A} {h0 h1 : List (Node A)} {memo : List (Nat × Nat)} {v v' : Val A}

/-- The facts about a finished call that the observations need. -/
structure Done (act : Kind A → Action A) (h0 h1 : List (Node A)) (memo : List (Nat × Nat)) (v v' : Val A) : Prop where
  tr : Tr act h0 memo v v'
  old : ∀ i, i < h0.length → h1[i]? = h0[i]?
  copied : ∀ p q, memo.lookup p = some q → p < h0.length ∧ h0.length ≤ q ∧ q < h1.length ∧ Reach h0 v p ∧ Complete act h0 ⟨h1, memo⟩ p q
  inj : ∀ p1 p2 q, memo.lookup p1 = some q → memo.lookup p2 = some q → p1 = p2
  kept : KeptDeep act h0 v

theorem Done.not_memo (hd : Done act h0 h1 memo v v') {p : Nat} {nd : Node A} (hp : h0[p]? = some nd) (hk : act nd.kind = .keep) : memo.lookup p = none := by
  cases hl : memo.lookup p with
  | none => rfl
  | some q =>
    obtain ⟨_, _, _, _, nd', nb, h1, _, h3, _⟩ := hd.copied p q hl
    rw [hp] at h1; cases h1
    simp [newKind, hk] at h3

/-- Following the same path on both sides leads to corresponding values. -/
theorem Done.follow (hd : Done act h0 h1 memo v v') (path : List Nat) (w w' : Val A) (hw : Tr act h0 memo w w')
    (hr : ∀ p, Reach h0 w p → Reach h0 v p) :
    (follow h0 w path = none ∧ follow h1 w' path = none) ∨
      ∃ x x', follow h0 w path = some x ∧ follow h1 w' path = some x' ∧ Tr act h0 memo x x' ∧ ∀ p, Reach h0 x p → Reach h0 v p := by
  induction path generalizing w w' with
  | nil => right; exact ⟨w, w', by simp [Heap.follow], by simp [Heap.follow], hw, hr⟩
  | cons i path ih =>
    cases w with
    | atom a => cases hw; left; simp [Heap.follow]
    | ref p =>
      rcases hw with ⟨q, hq, rfl⟩ | ⟨hnone, ⟨nd, hnd, hkeep⟩, rfl⟩
      · obtain ⟨_, _, _, _, nd, nb, c1, c2, _, c4⟩ := hd.copied p q hq
        have c2' : h1[q]? = some nb := c2
        rcases forall₂_get c4 i with ⟨e1, e2⟩ | ⟨a, b, e1, e2, hab⟩
        · left; simp [Heap.follow, c1, c2', e1, e2]
        · simp only [Heap.follow, c1, c2', e1, e2]
          exact ih a b hab fun r hra => hr r (.step p nd a r c1 (List.mem_of_getElem? e1) hra)
      · have hpl := (List.getElem?_eq_some_iff.mp hnd).1
        have hnd1 : h1[p]? = some nd := by rw [hd.old p hpl, hnd]
        cases hk : nd.kids[i]? with
        | none => left; simp [Heap.follow, hnd, hnd1, hk]
        | some kid =>
          simp only [Heap.follow, hnd, hnd1, hk]
          have hmem := List.mem_of_getElem? hk
          refine ih kid kid ?_ fun r hra => hr r (.step p nd kid r hnd hmem hra)
          cases kid with
          | atom a => rfl
          | ref c =>
            obtain ⟨ndc, hndc, hkc⟩ := hd.kept p nd (hr p (.here p)) hnd hkeep _ hmem c rfl
            exact Or.inr ⟨hd.not_memo hndc hkc, ⟨ndc, hndc, hkc⟩, rfl⟩

/-- The kind an object has after the call. -/
def kindAfter (act : Kind A → Action A) (k : Kind A) : Kind A :=
  match act k with
  | .copy k' _ => k'
  | .late k' => k'
  | _ => k

theorem Done.see (hd : Done act h0 h1 memo v v') {x x' : Val A} (hx : Tr act h0 memo x x') :
    see h1 x' = (see h0 x).map (Seen.mapKind (kindAfter act)) := by
  cases x with
  | atom a => cases hx; rfl
  | ref p =>
    rcases hx with ⟨q, hq, rfl⟩ | ⟨hnone, ⟨nd, hnd, hkeep⟩, rfl⟩
    · obtain ⟨_, _, _, _, nd, nb, c1, c2, c3, c4⟩ := hd.copied p q hq
      have c2' : h1[q]? = some nb := c2
      have hk : nb.kind = kindAfter act nd.kind := by
        unfold newKind at c3; unfold kindAfter
        cases hact : act nd.kind <;> simp_all
      simp [Heap.see, c1, c2', Seen.mapKind, hk, c4.length_eq]
    · have hpl := (List.getElem?_eq_some_iff.mp hnd).1
      simp [Heap.see, hd.old p hpl, hnd, Seen.mapKind, kindAfter, hkeep]

theorem Done.look (hd : Done act h0 h1 memo v v') (path : List Nat) : look h1 v' path = (look h0 v path).map (Seen.mapKind (kindAfter act)) := by
  rcases hd.follow path v v' hd.tr fun _ h => h with ⟨e1, e2⟩ | ⟨x, x', e1, e2, hx, _⟩
  · simp [Heap.look, e1, e2]
  · simp [Heap.look, e1, e2, hd.see hx]

/-- Corresponding values are the same exactly when the originals are. -/
theorem Done.inj_val (hd : Done act h0 h1 memo v v') {x y x' y' : Val A} (hx : Tr act h0 memo x x') (hy : Tr act h0 memo y y') : x' = y' ↔ x = y := by
  have key : ∀ z, Tr act h0 memo x z → ∀ w, Tr act h0 memo x w → z = w := by
    intro z hz w hw
    cases x with
    | atom a => cases hz; cases hw; rfl
    | ref p =>
      rcases hz with ⟨q, hq, rfl⟩ | ⟨h1, _, rfl⟩ <;> rcases hw with ⟨q', hq', rfl⟩ | ⟨h1', _, rfl⟩
      · rw [hq] at hq'; cases hq'; rfl
      · rw [hq] at h1'; cases h1'
      · rw [h1] at hq'; cases hq'
      · rfl
  constructor
  · rintro rfl
    cases x with
    | atom a =>
      cases hx
      cases y with
      | atom b => cases hy; rfl
      | ref p => rcases hy with ⟨q, _, e⟩ | ⟨_, _, e⟩ <;> cases e
    | ref p =>
      cases y with
      | atom b => cases hy; rcases hx with ⟨q, _, e⟩ | ⟨_, _, e⟩ <;> cases e
      | ref p2 =>
        rcases hx with ⟨q, hq, rfl⟩ | ⟨h1, ⟨nd, hnd, _⟩, rfl⟩ <;> rcases hy with ⟨q', hq', e⟩ | ⟨h1', ⟨nd', hnd', _⟩, e⟩
        · cases e; rw [hd.inj p p2 q hq hq']
        · cases e
          have := (hd.copied p _ hq).2.1
          have := (List.getElem?_eq_some_iff.mp hnd').1
          omega
        · cases e
          have := (hd.copied p2 _ hq').2.1
          have := (List.getElem?_eq_some_iff.mp hnd).1
          omega
        · cases e; rfl
  · rintro rfl; exact key _ hx _ hy

theorem Done.sharing (hd : Done act h0 h1 memo v v') (path1 path2 : List Nat) :
    Heap.follow h1 v' path1 = Heap.follow h1 v' path2 ↔ Heap.follow h0 v path1 = Heap.follow h0 v path2 := by
  rcases hd.follow path1 v v' hd.tr fun _ h => h with ⟨a1, a2⟩ | ⟨x, x', a1, a2, hx, _⟩ <;>
  rcases hd.follow path2 v v' hd.tr fun _ h => h with ⟨b1, b2⟩ | ⟨y, y', b1, b2, hy, _⟩ <;> simp only [a1, a2, b1, b2]
  · simp
  · simp
  · simpa using hd.inj_val hx hy

end

/-- Everything reachable is at the end of a path. -/
theorem Reach.path {h : List (Node A)} {v : Val A} {p : Nat} (hr : Reach h v p) : ∃ path, follow h v path = some (.ref p) := by
  induction hr with
  | here p => exact ⟨[], by simp [follow]⟩
  | step p nd kid r hp hk _ ih =>
    obtain ⟨path, hpath⟩ := ih
    obtain ⟨i, hi⟩ := List.getElem?_of_mem hk
    exact ⟨i :: path, by simp [follow, hp, hi, hpath]⟩

theorem follow_snoc {h : List (Node A)} {p i : Nat} {nd : Node A} {kid : Val A} {path : List Nat} {u : Val A} (hu : follow h u path = some (.ref p))
    (hnd : h[p]? = some nd) (hi : nd.kids[i]? = some kid) : follow h u (path ++ [i]) = some kid := by
  induction path generalizing u with
  | nil => simp only [follow] at hu; cases hu; simp [follow, hnd, hi]
  | cons j path ih =>
    cases u with
    | atom a => simp [follow] at hu
    | ref r =>
      simp only [follow, List.cons_append] at hu ⊢
      cases hr : h[r]? with
      | none => simp [hr] at hu
      | some ndr =>
        simp only [hr] at hu ⊢
        cases hkj : ndr.kids[j]? with
        | none => simp [hkj] at hu
        | some kj => simp only [hkj] at hu ⊢; exact ih hu

theorem follow_reach {h : List (Node A)} {p : Nat} {path : List Nat} {u : Val A} (hu : follow h u path = some (.ref p)) : Reach h u p := by
  induction path generalizing u with
  | nil => simp only [follow] at hu; cases hu; exact .here p
  | cons j path ih =>
    cases u with
    | atom a => simp [follow] at hu
    | ref r =>
      simp only [follow] at hu
      cases hr : h[r]? with
      | none => simp [hr] at hu
      | some ndr =>
        simp only [hr] at hu
        cases hkj : ndr.kids[j]? with
        | none => simp [hkj] at hu
        | some kj => simp only [hkj] at hu; exact .step r ndr kj p hr (List.mem_of_getElem? hkj) (ih hu)

/-- Two heaps that agree on everything a path meets agree on what the path shows. -/
theorem look_congr {h h' : List (Node A)} (P : Nat → Prop) (hP : ∀ p nd, P p → h[p]? = some nd → ∀ c, Val.ref c ∈ nd.kids → P c)
    (he : ∀ p, P p → h'[p]? = h[p]?) (v : Val A) (hv : ∀ c, v = .ref c → P c) (path : List Nat) :
    follow h' v path = follow h v path ∧ look h' v path = look h v path := by
  have : ∀ (path : List Nat) (v : Val A), (∀ c, v = .ref c → P c) → follow h' v path = follow h v path ∧ ∀ c, follow h v path = some (.ref c) → P c := by
    intro path
    induction path with
    | nil => intro v hv; simp only [follow, true_and]; intro c e; exact hv c (by simpa using e)
    | cons i path ih =>
      intro v hv
      cases v with
      | atom a => simp [follow]
      | ref p =>
        have hp := hv p rfl
        simp only [follow, he p hp]
        cases hn : h[p]? with
        | none => simp
        | some nd =>
          cases hk : nd.kids[i]? with
          | none => simp [hk]
          | some kid =>
            simp only [hk]
            exact ih kid fun c hc => hP p nd hp hn c (hc ▸ List.mem_of_getElem? hk)
  obtain ⟨h1, h2⟩ := this path v hv
  refine ⟨h1, ?_⟩
  unfold look
  rw [h1]
  cases hf : follow h v path with
  | none => rfl
  | some x =>
    cases x with
    | atom a => rfl
    | ref c => simp [see, he c (h2 c hf)]

/-! ### C37: deep clones -/

/-- No tuple contains itself, directly or through other objects. -/
def NoTupleCycle (h : List (Node A)) : Prop := ∀ (p : Nat) (nd : Node A), h[p]? = some nd → nd.kind = .tuple → ∀ kid ∈ nd.kids, ¬ Reach h kid p

/-- C37: on any finite object graph (with sharing and cycles, provided no cycle goes through a tuple), `deep_clone` terminates without an error; it leaves
every existing object as it was; every path shows the same contents in the clone as in the original; two paths lead to the same object in the clone exactly if they
do in the original; and no object of the clone is an object that existed before. -/
theorem C37_deep_clone (h0 : List (Node A)) (v : Val A) (hc : Closed h0) (hv : ValidVal h0 v) (ht : NoTupleCycle h0) :
    ∃ h1 v', deepClone h0 v = .ok (h1, v') ∧ (∀ i, i < h0.length → h1[i]? = h0[i]?) ∧
      (∀ path, look h1 v' path = look h0 v path) ∧
      (∀ path1 path2, follow h1 v' path1 = follow h1 v' path2 ↔ follow h0 v path1 = follow h0 v path2) ∧
      (∀ path q, follow h1 v' path = some (.ref q) → h0.length ≤ q) ∧ Closed h1 ∧ ValidVal h1 v' := by
  have hnk : ∀ k : Kind A, cloneAct k ≠ .keep := by intro k; cases k <;> simp [cloneAct]
  have hlate : ∀ (p : Nat) (nd : Node A) (k : Kind A), h0[p]? = some nd → cloneAct nd.kind = .late k → ∀ kid ∈ nd.kids, ¬ Reach h0 kid p := by
    intro p nd k hp hact kid hk
    refine ht p nd hp ?_ kid hk
    cases hkind : nd.kind <;> rw [hkind] at hact <;> simp_all [cloneAct]
  have ha : Accepts cloneAct h0 v := by
    intro p nd _ _
    constructor
    · cases nd.kind <;> simp [cloneAct]
    · intro k hk; cases hkind : nd.kind <;> rw [hkind] at hk <;> simp [cloneAct] at hk
  obtain ⟨h1, v', memo, hcall, htr, hlen, hold, hmemo, hinj, hcl, hval⟩ := call_spec cloneAct h0 hlate hc v hv ha
  have hd : Done cloneAct h0 h1 memo v v' := ⟨htr, hold, hmemo, hinj, fun p nd _ _ hk => absurd hk (hnk _)⟩
  refine ⟨h1, v', hcall, hold, ?_, hd.sharing, ?_, hcl, hval⟩
  · intro path
    rw [hd.look path]
    have : (Seen.mapKind (kindAfter cloneAct) : Seen A → Seen A) = id := by
      funext s
      cases s with
      | atom a => rfl
      | obj k n => cases k <;> rfl
    rw [this]; simp
  · intro path q hq
    rcases hd.follow path v v' htr fun _ h => h with ⟨_, e2⟩ | ⟨x, x', _, e2, hx, _⟩
    · rw [e2] at hq; cases hq
    · rw [e2] at hq; cases hq
      cases x with
      | atom a => cases hx
      | ref p =>
        rcases hx with ⟨q', hq', e⟩ | ⟨_, ⟨nd, _, hk⟩, _⟩
        · cases e; exact (hmemo p q hq').2.1
        · exact absurd hk (hnk _)

/-- C37: the clone is independent of the original. Whatever happens later to the objects of the original (and to objects made later), the clone shows what
the original showed when it was cloned; whatever happens to the objects of the clone, the original does not change. -/
theorem C37_independent (h0 h1 h2 : List (Node A)) (v v' : Val A) (hc : Closed h0) (hv : ValidVal h0 v) (ht : NoTupleCycle h0)
    (hclone : deepClone h0 v = .ok (h1, v')) :
    ((∀ i, h0.length ≤ i → i < h1.length → h2[i]? = h1[i]?) → ∀ path, look h2 v' path = look h0 v path) ∧
    ((∀ i, i < h0.length → h2[i]? = h1[i]?) → ∀ path, look h2 v path = look h0 v path) := by
  obtain ⟨h1', v'', hcall, hold, hlook, _, hfresh, hcl1, hval1⟩ := C37_deep_clone h0 v hc hv ht
  rw [hclone] at hcall; cases hcall
  constructor
  · intro he path
    rw [← hlook path]
    refine (look_congr (fun p => ∃ path, follow h1 v' path = some (.ref p) ∧ p < h1.length) ?_ ?_ v' ?_ path).2
    · rintro p nd ⟨path, hp, _⟩ hnd c hk
      obtain ⟨i, hi⟩ := List.getElem?_of_mem hk
      refine ⟨path ++ [i], follow_snoc hp hnd hi, ?_⟩
      exact hcl1 p nd hnd _ hk c rfl
    · rintro p ⟨path, hp, hlt⟩
      exact he p (hfresh path p hp) hlt
    · rintro c rfl
      refine ⟨[], by simp [follow], ?_⟩
      exact hval1 c rfl
  · intro he path
    exact (look_congr (fun p => p < h0.length) (fun p nd _ hnd c hk => hc p nd hnd _ hk c rfl) (fun p hp => by rw [he p hp, hold p hp]) v hv path).2

/-- A shared, cyclic graph: `a = [1]; d = {"x": a, "y": a, "t": (a, 2)}; a.append(d)`. -/
def sampleHeap : List (Node Nat) :=
  [⟨.list, [.atom 1, .ref 1]⟩, ⟨.dict [10, 11, 12], [.ref 0, .ref 0, .ref 2]⟩, ⟨.tuple, [.ref 3, .atom 2]⟩, ⟨.tensor 7 false, []⟩]

example : deepClone sampleHeap (.ref 1) =
    .ok (sampleHeap ++ [⟨.dict [10, 11, 12], [.ref 5, .ref 5, .ref 8]⟩, ⟨.list, [.atom 1, .ref 4]⟩, ⟨.list, [.ref 7, .atom 2]⟩, ⟨.tensor 7 false, []⟩,
      ⟨.tuple, [.ref 7, .atom 2]⟩], .ref 4) := by decide +kernel

theorem reach_inv {h : List (Node A)} {v : Val A} {p : Nat} (hr : Reach h v p) (S : Nat → Prop)
    (hS : ∀ q nd, S q → h[q]? = some nd → ∀ c, Val.ref c ∈ nd.kids → S c) (hv : ∀ c, v = .ref c → S c) : S p := by
  induction hr with
  | here p => exact hv p rfl
  | step q nd kid r hq hk _ ih =>
    refine ih ?_
    rintro c rfl
    exact hS q nd (hv q rfl) hq c hk

theorem sample_ok : Closed sampleHeap ∧ NoTupleCycle sampleHeap := by
  constructor
  · intro p nd hp kid hk c hc
    subst hc
    match p, hp with
    | 0, hp => cases hp; simp at hk; subst hk; decide
    | 1, hp => cases hp; simp at hk; rcases hk with rfl | rfl <;> decide
    | 2, hp => cases hp; simp at hk; subst hk; decide
    | 3, hp => cases hp; simp at hk
    | n + 4, hp => simp [sampleHeap] at hp
  · intro p nd hp ht kid hk hr
    match p, hp with
    | 0, hp => cases hp; cases ht
    | 1, hp => cases hp; cases ht
    | 3, hp => cases hp; cases ht
    | n + 4, hp => simp [sampleHeap] at hp
    | 2, hp =>
      cases hp
      have := reach_inv hr (fun q => q = 3) (by
        rintro q nd rfl hq c hk
        cases hq; cases hk) (by
        rintro c rfl
        simpa using hk)
      simp at this

/-- The hypotheses of C37 are met by this graph. -/
example : ∃ h1 v', deepClone sampleHeap (.ref 1) = .ok (h1, v') ∧ ∀ path, look h1 v' path = look sampleHeap (.ref 1) path := by
  obtain ⟨h1, v', h, _, h2, _⟩ := C37_deep_clone sampleHeap (.ref 1) sample_ok.1 (by rintro c h; cases h; decide) sample_ok.2
  exact ⟨h1, v', h, h2⟩

/-- A cycle through a tuple is not preserved (`cloning.py:172-181`): after `l = []; t = (l,); l.append(t)`, `deep_clone(t)[0][0]` is a list, not the
cloned tuple. (The statement of C37 is about lists and dictionaries.) -/
theorem C37_tuple_cycle_not_preserved : ∃ (h0 : List (Node Nat)) (v : Val Nat) (h1 : List (Node Nat)) (v' : Val Nat), deepClone h0 v = .ok (h1, v') ∧
    look h0 v [0, 0] = some (.obj .tuple 1) ∧ look h1 v' [0, 0] = some (.obj .list 1) :=
  ⟨[⟨.list, [.ref 1]⟩, ⟨.tuple, [.ref 0]⟩], .ref 1, _, _, rfl, by decide, by decide⟩

/-! ### C36: immutable copies -/

/-- Immutable objects hold only atoms and immutable objects. `as_immutable` and the constructors establish this (`C36_as_immutable`). -/
def ImmDeep (h : List (Node A)) (v : Val A) : Prop :=
  ∀ (p : Nat) (nd : Node A), Reach h v p → h[p]? = some nd → immutable nd.kind = true →
    ∀ c, Val.ref c ∈ nd.kids → ∃ ndc, h[c]? = some ndc ∧ immutable ndc.kind = true

/-- Sets hold only atoms. -/
def SetsPlain (h : List (Node A)) (v : Val A) : Prop :=
  ∀ (p : Nat) (nd : Node A), Reach h v p → h[p]? = some nd → nd.kind = .set → ∀ kid ∈ nd.kids, ∃ a, kid = .atom a

theorem immAct_keep (k : Kind A) : immAct k = .keep ↔ immutable k = true := by
  cases k with
  | tensor d ro => cases ro <;> simp [immAct, immutable]
  | _ => simp [immAct, immutable]

theorem immAct_frozen (k : Kind A) : kindAfter immAct k = frozen k := by
  cases k with
  | tensor d ro => cases ro <;> simp [immAct, kindAfter, frozen]
  | _ => simp [immAct, kindAfter, frozen]

theorem frozen_immutable (k : Kind A) : immutable (frozen k) = true := by cases k <;> rfl

/-- C36: for any object graph in which sets hold only atoms, `as_immutable` succeeds and leaves the existing objects alone; every path shows, in the
result, the immutable counterpart of what it shows in the argument (same atoms, keys, lengths and tensor data); identity of objects is preserved; everything in the
result is immutable; and the result shows the same whatever later happens to mutable objects or to objects made later. -/
theorem C36_as_immutable (h0 : List (Node A)) (v : Val A) (hc : Closed h0) (hv : ValidVal h0 v) (hi : ImmDeep h0 v) (hs : SetsPlain h0 v) :
    ∃ h1 v', asImmutable h0 v = .ok (h1, v') ∧ (∀ i, i < h0.length → h1[i]? = h0[i]?) ∧
      (∀ path, look h1 v' path = (look h0 v path).map (Seen.mapKind frozen)) ∧
      (∀ path1 path2, follow h1 v' path1 = follow h1 v' path2 ↔ follow h0 v path1 = follow h0 v path2) ∧
      (∀ path k n, look h1 v' path = some (.obj k n) → immutable k = true) ∧
      (∀ h2 : List (Node A), (∀ (i : Nat) nd, h1[i]? = some nd → immutable nd.kind = true → h2[i]? = some nd) → ∀ path, look h2 v' path = look h1 v' path) ∧
      Closed h1 ∧ ValidVal h1 v' := by
  have ha : Accepts immAct h0 v := by
    intro p nd hr hnd
    constructor
    · cases nd.kind with
      | tensor d ro => cases ro <;> simp [immAct]
      | _ => simp [immAct]
    · intro k hk
      refine hs p nd hr hnd ?_
      cases hkind : nd.kind with
      | tensor d ro => cases ro <;> simp [hkind, immAct] at hk
      | _ => simp_all [immAct]
  obtain ⟨h1, v', memo, hcall, htr, hlen, hold, hmemo, hinj, hcl, hval⟩ := call_spec immAct h0 (by
    intro p nd k hp hact
    exfalso
    cases hkind : nd.kind with
    | tensor d ro => cases ro <;> simp [hkind, immAct] at hact
    | _ => simp [hkind, immAct] at hact) hc v hv ha
  have hd : Done immAct h0 h1 memo v v' := ⟨htr, hold, hmemo, hinj, by
    rintro p nd hr hnd hk kid hkid c rfl
    obtain ⟨ndc, h1, h2⟩ := hi p nd hr hnd ((immAct_keep _).mp hk) c hkid
    exact ⟨ndc, h1, (immAct_keep _).mpr h2⟩⟩
  have hfr : (Seen.mapKind (kindAfter immAct) : Seen A → Seen A) = Seen.mapKind frozen := by
    funext s
    cases s with
    | atom a => rfl
    | obj k n => simp [Seen.mapKind, immAct_frozen]
  have hlook : ∀ path, look h1 v' path = (look h0 v path).map (Seen.mapKind frozen) := fun path => by rw [hd.look path, hfr]
  have himm : ∀ path k n, look h1 v' path = some (.obj k n) → immutable k = true := by
    intro path k n h
    rw [hlook] at h
    cases hl : look h0 v path with
    | none => rw [hl] at h; cases h
    | some s =>
      rw [hl] at h
      cases s with
      | atom a => cases h
      | obj k0 n0 => simp only [Option.map_some, Seen.mapKind, Option.some.injEq, Seen.obj.injEq] at h; rw [← h.1]; exact frozen_immutable k0
  refine ⟨h1, v', hcall, hold, hlook, hd.sharing, himm, ?_, hcl, hval⟩
  intro h2 he path
  refine (look_congr (fun p => ∃ path, follow h1 v' path = some (.ref p) ∧ p < h1.length) ?_ ?_ v' ?_ path).2
  · rintro p nd ⟨path, hp, _⟩ hnd c hk
    obtain ⟨i, hi⟩ := List.getElem?_of_mem hk
    exact ⟨path ++ [i], follow_snoc hp hnd hi, hcl p nd hnd _ hk c rfl⟩
  · rintro p ⟨path, hp, hlt⟩
    have hnd := List.getElem?_eq_getElem hlt
    rw [hnd]
    refine he p _ hnd (himm path _ h1[p].kids.length ?_)
    simp [look, hp, see, hnd]
  · rintro c rfl
    exact ⟨[], by simp [follow], hval c rfl⟩

/-- `h = {"a": [1, t], "s": {2}, "i": <an immutable list>}`. -/
def immSample : List (Node Nat) :=
  [⟨.list, [.atom 1, .ref 2]⟩, ⟨.dict [10, 11, 12], [.ref 0, .ref 3, .ref 4]⟩, ⟨.tensor 7 false, []⟩, ⟨.set, [.atom 2]⟩, ⟨.immList, [.atom 5]⟩]

example : asImmutable immSample (.ref 1) =
    .ok (immSample ++ [⟨.immDict [10, 11, 12], [.ref 6, .ref 8, .ref 4]⟩, ⟨.immList, [.atom 1, .ref 7]⟩, ⟨.tensor 7 true, []⟩, ⟨.immSet, [.atom 2]⟩], .ref 5) := by
  decide +kernel

theorem immSample_ok : Closed immSample ∧ ImmDeep immSample (.ref 1) ∧ SetsPlain immSample (.ref 1) := by
  refine ⟨?_, ?_, ?_⟩
  · intro p nd hp kid hk c hc
    subst hc
    match p, hp with
    | 0, hp => cases hp; simp at hk; subst hk; decide
    | 1, hp => cases hp; simp at hk; rcases hk with rfl | rfl | rfl <;> decide
    | 2, hp => cases hp; simp at hk
    | 3, hp => cases hp; simp at hk
    | 4, hp => cases hp; simp at hk
    | n + 5, hp => simp [immSample] at hp
  · intro p nd _ hp him c hk
    match p, hp with
    | 0, hp => cases hp; cases him
    | 1, hp => cases hp; cases him
    | 2, hp => cases hp; cases him
    | 3, hp => cases hp; cases him
    | 4, hp => cases hp; simp at hk
    | n + 5, hp => simp [immSample] at hp
  · intro p nd _ hp hset kid hk
    match p, hp with
    | 0, hp => cases hp; cases hset
    | 1, hp => cases hp; cases hset
    | 2, hp => cases hp; cases hset
    | 3, hp => cases hp; simp at hk; exact ⟨2, hk⟩
    | 4, hp => cases hp; cases hset
    | n + 5, hp => simp [immSample] at hp

example : ∃ h1 v', asImmutable immSample (.ref 1) = .ok (h1, v') ∧ ∀ path k n, look h1 v' path = some (.obj k n) → immutable k = true := by
  obtain ⟨h1, v', h, _, _, _, h2, _⟩ := C36_as_immutable immSample (.ref 1) immSample_ok.1 (by rintro c h; cases h; decide) immSample_ok.2.1 immSample_ok.2.2
  exact ⟨h1, v', h, h2⟩

/-- C36 (round trip, except for the type of tuples): for any such graph, `mutable_copy(as_immutable(x))` succeeds and shows, at every path, the mutable
counterpart of what `x` shows: lists, sets, dictionaries, atoms and tensor data are the same; identity is preserved; all its objects are new. Missing: a tuple comes
back as a list (`C36_violated_tuple`). -/
theorem C36_roundtrip_partial (h0 : List (Node A)) (v : Val A) (hc : Closed h0) (hv : ValidVal h0 v) (hi : ImmDeep h0 v) (hs : SetsPlain h0 v) :
    ∃ h1 v' h2 v'', asImmutable h0 v = .ok (h1, v') ∧ mutableCopy h1 v' = .ok (h2, v'') ∧ (∀ i, i < h0.length → h2[i]? = h0[i]?) ∧
      (∀ path, look h2 v'' path = (look h0 v path).map (Seen.mapKind tupleAsList)) ∧
      (∀ path1 path2, follow h2 v'' path1 = follow h2 v'' path2 ↔ follow h0 v path1 = follow h0 v path2) ∧
      (∀ path q, follow h2 v'' path = some (.ref q) → h0.length ≤ q) := by
  obtain ⟨h1, v', hcall, hold, hlook, hshare, himm, _, hcl, hval⟩ := C36_as_immutable h0 v hc hv hi hs
  have hlen : h0.length ≤ h1.length := by
    by_contra hlt
    have h := hold h1.length (by omega)
    rw [List.getElem?_eq_none (Nat.le_refl _), List.getElem?_eq_getElem (by omega)] at h
    cases h
  have hkind : ∀ (p : Nat) (nd : Node A), Reach h1 v' p → h1[p]? = some nd → immutable nd.kind = true := by
    intro p nd hr hnd
    obtain ⟨path, hp⟩ := hr.path
    exact himm path nd.kind nd.kids.length (by simp [look, hp, see, hnd])
  have hnk : ∀ k : Kind A, mutAct k ≠ .keep := by intro k; cases k <;> simp [mutAct]
  have ha : Accepts mutAct h1 v' := by
    intro p nd hr hnd
    have := hkind p nd hr hnd
    constructor
    · cases hk : nd.kind <;> rw [hk] at this <;> simp_all [mutAct, immutable]
    · intro k hk; cases hkk : nd.kind <;> rw [hkk] at hk <;> simp [mutAct] at hk
  obtain ⟨h2, v'', memo, hcall2, htr, hlen2, hold2, hmemo, hinj, hcl2, hval2⟩ := call_spec mutAct h1 (by
    intro p nd k hp hact
    exfalso
    cases hkk : nd.kind <;> rw [hkk] at hact <;> simp [mutAct] at hact) hcl v' hval ha
  have hd : Done mutAct h1 h2 memo v' v'' := ⟨htr, hold2, hmemo, hinj, fun p nd _ _ hk => absurd hk (hnk _)⟩
  refine ⟨h1, v', h2, v'', hcall, hcall2, fun i h => by rw [hold2 i (by omega), hold i h], ?_, fun p1 p2 => by rw [hd.sharing, hshare], ?_⟩
  · intro path
    rw [hd.look, hlook, Option.map_map]
    congr 1
    funext s
    cases s with
    | atom a => rfl
    | obj k n => cases k <;> simp [Seen.mapKind, frozen, kindAfter, mutAct, tupleAsList, thawed]
  · intro path q hq
    rcases hd.follow path v' v'' htr fun _ h => h with ⟨_, e2⟩ | ⟨x, x', _, e2, hx, _⟩
    · rw [e2] at hq; cases hq
    · rw [e2] at hq; cases hq
      cases x with
      | atom a => cases hx
      | ref p =>
        rcases hx with ⟨q', hq', e⟩ | ⟨_, ⟨nd, _, hk⟩, _⟩
        · cases e; have := (hmemo p q hq').2.1; omega
        · exact absurd hk (hnk _)

example : ∃ h1 v' h2 v'', asImmutable immSample (.ref 1) = .ok (h1, v') ∧ mutableCopy h1 v' = .ok (h2, v'') ∧
    look h2 v'' [0] = some (.obj .list 2) ∧ look h2 v'' [1] = some (.obj .set 1) ∧ look h2 v'' [0, 1] = some (.obj (.tensor 7 false) 0) :=
  ⟨_, _, _, _, rfl, rfl, by decide, by decide, by decide⟩

/-- C36 fails for tuples: `mutable_copy(as_immutable((1, 2)))` is the list `[1, 2]`, which is not equal to the tuple. -/
theorem C36_violated_tuple : ∃ (h0 : List (Node Nat)) (v : Val Nat) (h1 : List (Node Nat)) (v' : Val Nat) (h2 : List (Node Nat)) (v'' : Val Nat),
    asImmutable h0 v = .ok (h1, v') ∧ mutableCopy h1 v' = .ok (h2, v'') ∧ look h0 v [] = some (.obj .tuple 2) ∧ look h2 v'' [] = some (.obj .list 2) :=
  ⟨[⟨.tuple, [.atom 1, .atom 2]⟩], .ref 0, _, _, _, _, rfl, rfl, by decide, by decide⟩

/-- C36 fails for sets of tuples: `as_immutable({(1, 2)})` raises TypeError, because the `ImmutableList` made from the tuple is not hashable. -/
theorem C36_violated_set_of_tuples : ∃ (h0 : List (Node Nat)) (v : Val Nat), asImmutable h0 v = .error .typeError :=
  ⟨[⟨.tuple, [.atom 1, .atom 2]⟩, ⟨.set, [.ref 0]⟩], .ref 1, by decide⟩

end EvoTorch.Heap
