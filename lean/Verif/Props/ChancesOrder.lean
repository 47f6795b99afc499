import Verif.Proofs.Chances
import Verif.Props.CBag
import Verif.Props.Operators
/-! Property C162, continued: random orders. Keys drawn from a continuous distribution are distinct, and their order is a uniformly random permutation. -/
namespace EvoTorch.Chances
open EvoTorch EvoTorch.Spec.Chances Finset

section cosyne
variable {K V : Type} [LinearOrder K] [OfNat K 1]

/-- The selected rows. -/
theorem range_filter_eq {n : Nat} (mask : Fin n → Bool) :
    ((List.range (List.ofFn mask).length).filter fun i => ((List.ofFn mask)[i]?).getD false) = ((List.finRange n).filter mask).map Fin.val := by
  have h : List.range (List.ofFn mask).length = (List.finRange n).map Fin.val := by
    rw [List.length_ofFn]; simp
  rw [h, List.filter_map]
  congr 1
  apply List.filter_congr
  intro i _
  simp

theorem filterMap_val {n : Nat} (col : Fin n → V) (o : List (Fin n)) : (o.map Fin.val).filterMap (fun i => (List.ofFn col)[i]?) = o.map col := by
  induction o with
  | nil => rfl
  | cons a o ih => simp [ih]

/-- **C162: Cosyne permutation.** If the draws are distinct numbers below 1 arranged in a uniformly random order, then every rearrangement of the selected entries of a
column (with distinct entries) is equally likely. -/
theorem C162_cosyne_orders {n : Nat} {sort : List K → List Nat} (hsort : ∀ l, Selection.IsArgsort (· ≤ ·) l (sort l))
    {sortNat : List Nat → List Nat} (hnat : ∀ l, (sortNat l).Perm l ∧ (sortNat l).Pairwise (· ≤ ·))
    (mask : Fin n → Bool) (keys : Fin n → K) (hk : Function.Injective keys) (hlt : ∀ i, keys i < 1) (col : Fin n → V) (hcol : Function.Injective col)
    (τ : Equiv.Perm (Fin n)) (hτ : ∀ i, mask i = false → τ i = i) :
    chance (Finset.univ : Finset (Equiv.Perm (Fin n))) (fun π =>
      Operators.cosyneColumn sort sortNat (List.ofFn mask) (List.ofFn fun i => keys (π i)) (List.ofFn col) = List.ofFn fun i => col (τ i)) =
    1 / (((Finset.univ.filter fun i => mask i = true).card).factorial : ℚ) := by
  set MF := (List.finRange n).filter mask with hMF
  have hMFnd : MF.Nodup := (List.nodup_finRange n).filter _
  have hmemMF : ∀ i, i ∈ MF ↔ mask i = true := fun i => by simp [hMF]
  have hlen : MF.length = (Finset.univ.filter fun i => mask i = true).card := by
    rw [← List.toFinset_card_of_nodup hMFnd]
    congr 1
    ext i; simp [hMF]
  have hmaskτ : ∀ i, mask i = true → mask (τ i) = true := by
    intro i hi
    by_contra h
    have h1 := hτ (τ i) (by simpa using h)
    have h2 := τ.injective h1
    rw [h2] at h; exact h hi
  set o := MF.map τ with ho
  have hond : o.Nodup := hMFnd.map τ.injective
  have hoperm : o.Perm MF := by
    refine List.Subperm.perm_of_length_le (List.subperm_of_subset hond fun x hx => ?_) (by simp [ho])
    obtain ⟨i, hi, rfl⟩ := List.mem_map.mp hx
    exact (hmemMF _).mpr (hmaskτ i ((hmemMF i).mp hi))
  have hmain := chance_order keys hk o hond
  rw [show o.length = MF.length by simp [ho], hlen] at hmain
  rw [← hmain]
  apply chance_congr
  intro π _
  obtain ⟨-, tgt, htp, hts, hres⟩ := Operators.cosyne_form hsort hnat (List.ofFn mask) (List.ofFn fun i => keys (π i)) (List.ofFn col) (by simp)
    (by intro x hx; rw [List.mem_ofFn] at hx; obtain ⟨i, rfl⟩ := hx; exact hlt _)
  rw [range_filter_eq, ← hMF] at htp hres
  -- the targets as elements of `Fin n`
  have hmemt : ∀ i ∈ tgt, i < n := by
    intro i hi
    obtain ⟨j, -, rfl⟩ := List.mem_map.mp (htp.mem_iff.mp hi)
    exact j.isLt
  let tF : List (Fin n) := tgt.pmap (fun i h => ⟨i, h⟩) hmemt
  have htF : tF.map Fin.val = tgt := by
    simp only [tF, List.map_pmap]
    rw [List.pmap_eq_map]; simp
  have htFp : tF.Perm MF := by
    have : (tF.map Fin.val).Perm (MF.map Fin.val) := by rw [htF]; exact htp
    exact (List.map_perm_map_iff Fin.val_injective).mp this
  have htFnd : tF.Nodup := htFp.nodup_iff.mpr hMFnd
  have htFs : tF.Pairwise fun a b => keys (π a) < keys (π b) := by
    rw [← htF, List.pairwise_map] at hts
    refine (hts.and htFnd).imp fun {a b} h => ?_
    have h1 := h.1 (keys (π a)) (keys (π b)) (by simp) (by simp)
    exact lt_of_le_of_ne h1 fun e => h.2 (π.injective (hk e))
  rw [← htF, filterMap_val] at hres
  rw [hres]
  have hMlt : ∀ i ∈ MF.map Fin.val, i < (List.ofFn col).length := by
    intro i hi
    obtain ⟨j, -, rfl⟩ := List.mem_map.mp hi
    simp
  have hMnd : (MF.map Fin.val).Nodup := hMFnd.map Fin.val_injective
  constructor
  · intro heq
    have h1 := Operators.scatter_filterMap (MF.map Fin.val) (tF.map col) (List.ofFn col) hMnd (by simp [htFp.length_eq]) hMlt
    rw [heq, filterMap_val fun i => col (τ i)] at h1
    have h2 : (o.map col) = tF.map col := by rw [← h1, ho, List.map_map]; rfl
    rw [(List.map_injective_iff.mpr hcol) h2]
    exact htFs
  · intro hs
    have heq : tF = o := List.Perm.eq_of_pairwise (le := fun a b => keys (π a) < keys (π b))
      (fun a b _ _ hab hba => absurd (lt_trans hab hba) (lt_irrefl _)) htFs hs (htFp.trans hoperm.symm)
    rw [heq]
    apply List.ext_getElem?
    intro i
    by_cases hi : i ∈ MF.map Fin.val
    · obtain ⟨k, hk', hki⟩ := List.getElem_of_mem hi
      rw [Ranking.scatter_get (MF.map Fin.val) (o.map col) (List.ofFn col) hMnd (by simp [ho]) hMlt k i (by rw [List.getElem?_eq_getElem hk', hki])]
      have hk2 : k < MF.length := by simpa using hk'
      have hki' : (MF[k]).val = i := by simpa using hki
      subst hki'
      simp [ho, hk2]
    · rw [Ranking.scatter_other _ _ _ hi]
      by_cases hin : i < n
      · have hm : mask ⟨i, hin⟩ = false := by
          by_contra h
          exact hi (List.mem_map.mpr ⟨⟨i, hin⟩, (hmemMF _).mpr (by simpa using h), rfl⟩)
        rw [List.getElem?_eq_getElem (by simpa using hin), List.getElem?_eq_getElem (by simpa using hin), List.getElem_ofFn, List.getElem_ofFn, hτ _ hm]
      · rw [List.getElem?_eq_none (by simp; omega), List.getElem?_eq_none (by simp; omega)]

end cosyne

/-- Three draws of which the first and the last take part; the rearrangement swaps these two. -/
example : Function.Injective (fun i : Fin 3 => (i.val : ℚ) / 4) ∧ (∀ i : Fin 3, (i.val : ℚ) / 4 < 1) ∧
    ∀ i : Fin 3, (![true, false, true] : Fin 3 → Bool) i = false → Equiv.swap (0 : Fin 3) 2 i = i := by
  refine ⟨fun a b h => ?_, fun i => ?_, by decide⟩
  · have : (a.val : ℚ) = b.val := by simpa using h
    exact Fin.ext (by exact_mod_cast this)
  · rw [div_lt_one (by norm_num)]
    exact_mod_cast (by omega : i.val < 4)

/-! ### Bags -/

section bag
open EvoTorch.CBag EvoTorch.CList EvoTorch.Spec.Bag
variable {B : Nat} {c : Cfg}

/-- Popping everything from bags which have been shuffled gives the contents from the end. -/
theorem pops_shuffled (hc : c.Ok) (noise : Fin B → Nat → Int) (n : Nat) (b : Bag B) (hb : b.sampling = true) (l : Fin B → List Int)
    (hr : ∀ i, Rep c.maxLength (b.list i) (l i)) (hl : ∀ i, (l i).length = n) (i : Fin B) :
    ((CBag.run c b (List.replicate n (.pop fun _ => true, noise))).map fun p => p.2.map fun f => f i) = (l i).reverse.map .ok := by
  have hL : (2 : Int) ≤ c.maxLength := by have := hc.len; omega
  induction n generalizing b l with
  | zero =>
    have : l i = [] := List.length_eq_zero_iff.mp (hl i)
    simp [this, CBag.run]
  | succ n ih =>
    have hsim := CList.sim_pop (cap := c.maxLength) hL hr (fun _ => true) 0
    obtain ⟨f, h1, h2⟩ := hsim.good (by
      rintro ⟨i, -, hi⟩
      have hne : l i = [] := by simpa [CList.Call.at, Spec.Deque.step] using hi
      have := hl i; rw [hne] at this; simp at this)
    obtain ⟨o, h1'⟩ : ∃ o, (CList.pop (c.maxLength : Int) 0 b.list fun _ => true).result = .ok o := by
      simp only [CList.exec] at h1
      cases hr : (CList.pop (c.maxLength : Int) 0 b.list fun _ => true).result with
      | ok u => exact ⟨u, rfl⟩
      | error e => rw [hr] at h1; simp [Except.map] at h1
    have hf : ∀ i, f i = .val (o i) := by
      simp only [CList.exec, h1', Except.map, Except.ok.injEq] at h1
      intro i; rw [← h1]
    have hlast : ∀ i, ∃ d, l i = d ++ [o i] ∧ Rep (c.maxLength : Int) ((CList.pop (c.maxLength : Int) 0 b.list fun _ => true).state i) d := by
      intro i
      obtain ⟨l', h3, h4⟩ := (h2 i).1 rfl
      refine ⟨l', ?_, h4⟩
      simp only [CList.Call.at, Spec.Deque.step, Option.map_eq_some_iff, Prod.mk.injEq, hf] at h3
      obtain ⟨x, hx, rfl, hx'⟩ := h3
      cases hx'
      have hne : l i ≠ [] := by intro h; rw [h] at hx; simp at hx
      rw [List.getLast?_eq_some_getLast hne, Option.some.injEq] at hx
      rw [← hx]; exact (List.dropLast_append_getLast hne).symm
    choose d hd hrd using hlast
    have hdl : ∀ i, (d i).length = n := by
      intro i
      have := hl i
      rw [hd i, List.length_append, List.length_singleton] at this; omega
    have hexec : CBag.exec c noise b (.pop fun _ => true) =
        ⟨{ b with list := (CList.pop (c.maxLength : Int) 0 b.list fun _ => true).state }, .ok o⟩ := by
      simp only [CBag.exec, hb, if_true, h1']
    rw [List.replicate_succ, CBag.run, hexec]
    have := ih ⟨(CList.pop (c.maxLength : Int) 0 b.list fun _ => true).state, b.sampling⟩ hb d hrd hdl
    simp only [List.map_cons, this, hd i, List.reverse_append, List.reverse_singleton, List.singleton_append]
    rfl

theorem run_append (b : Bag B) (xs ys : List (Spec.Bag.Call B × (Fin B → Nat → Int))) :
    CBag.run c b (xs ++ ys) = CBag.run c b xs ++ CBag.run c (xs.foldl (fun b p => (CBag.exec c p.2 b p.1).state) b) ys := by
  induction xs generalizing b with
  | nil => rfl
  | cons p xs ih => simp [CBag.run, ih]

theorem run_length (b : Bag B) (xs : List (Spec.Bag.Call B × (Fin B → Nat → Int))) : (CBag.run c b xs).length = xs.length := by
  induction xs generalizing b with
  | nil => rfl
  | cons p xs ih => simp [CBag.run, ih]

/-- Filling the bags. -/
theorem pushes_inv (hc : c.Ok) (pushes : List (Fin B → Int)) (hin : ∀ v ∈ pushes, ∀ i, c.low ≤ v i ∧ v i < c.high) (b : Bag B) (s : State B)
    (hI : Inv c b s) (hs : s.sampling = false) (hcap : ∀ i, (s.rem i).card + pushes.length ≤ c.maxLength) :
    ∃ s' : State B, Inv c ((pushes.map fun v => ((.push v fun _ => true : Spec.Bag.Call B), fun _ _ => (0 : Int))).foldl
        (fun b p => (CBag.exec c p.2 b p.1).state) b) s' ∧ s'.sampling = false ∧ ∀ i, s'.rem i = s.rem i + (pushes.map fun v => v i) := by
  induction pushes generalizing b s with
  | nil => exact ⟨s, hI, hs, fun i => by simp⟩
  | cons v pushes ih =>
    obtain ⟨s1, h1, h2⟩ := inv_step hc b s hI (.push v fun _ => true) (fun i _ => hin v (by simp) i) (fun _ _ => 0)
      (fun i j _ => ⟨le_rfl, by have := hc.len; show (0 : Int) < _; omega⟩)
    simp only [Step, hs, Bool.false_eq_true, if_false] at h1
    rw [if_neg (by
      rintro ⟨i, -, hi⟩
      have := hcap i; rw [hi, List.length_cons] at this; omega)] at h1
    obtain ⟨-, h3, h4⟩ := h1
    obtain ⟨s', h5, h6, h7⟩ := ih (fun w hw => hin w (List.mem_cons_of_mem _ hw)) _ s1 h2 h3 (fun i => by
      have := hcap i
      rw [h4 i, if_pos trivial, Multiset.card_cons]
      rw [List.length_cons] at this; omega)
    refine ⟨s', h5, h6, fun i => ?_⟩
    rw [h7 i, h4 i, if_pos trivial, List.map_cons, ← Multiset.cons_coe, Multiset.cons_add, Multiset.add_cons]

/-- What popping all items returns, in terms of the order of the noise. -/
theorem pops_order (hc : c.Ok) (noise : Fin B → Nat → Int) (hn : NoiseOk c noise) (n : Nat) (b : Bag B) (hb : b.sampling = false) (l : Fin B → List Int)
    (hf : ∀ i, Filling c (b.list i) (l i)) (hl : ∀ i, (l i).length = n) (i : Fin B) :
    ∃ o : List Nat, o.Perm (List.range n) ∧ (o.Pairwise fun a b => noise i b ≤ noise i a) ∧
      ((CBag.run c b (List.replicate n (.pop fun _ => true, noise))).map fun p => p.2.map fun f => f i) = (o.map fun j => (l i).getD j 0).reverse.map .ok := by
  have hsh : ∀ i, ∃ o : List Nat, o.Perm (List.range (l i).length) ∧ (o.Pairwise fun a b => noise i b ≤ noise i a) ∧
      Rep c.maxLength (shuffleRow c (noise i) (b.list i)) (o.map fun j => (l i).getD j 0) := fun i => (hf i).shuffle_order hc (noise i) (hn i)
  choose o ho1 ho2 ho3 using hsh
  refine ⟨o i, by rw [← hl i]; exact ho1 i, ho2 i, ?_⟩
  have hlen : ∀ i, ((o i).map fun j => (l i).getD j 0).length = n := by
    intro i; rw [List.length_map, (ho1 i).length_eq, List.length_range, hl i]
  rw [← pops_shuffled hc noise n ⟨fun i => shuffleRow c (noise i) (b.list i), true⟩ rfl _ ho3 hlen i]
  cases n with
  | zero => rfl
  | succ n =>
    rw [List.replicate_succ, CBag.run, CBag.run]
    have : CBag.exec c noise b (.pop fun _ => true) = CBag.exec c noise ⟨fun i => shuffleRow c (noise i) (b.list i), true⟩ (.pop fun _ => true) := by
      simp only [CBag.exec, hb, Bool.false_eq_true, if_false, if_true]
    rw [this]

/-- **C162: bags.** Fill a batch of bags, the items of bag `i` being distinct, and pop everything. If the noise of bag `i` is a uniformly random permutation of its positions then
every order of its items is equally likely, whatever the noise of the other bags. -/
theorem C162_bag_orders (hc : c.Ok) (pushes : List (Fin B → Int)) (hin : ∀ v ∈ pushes, ∀ i, c.low ≤ v i ∧ v i < c.high) (hcap : pushes.length ≤ c.maxLength)
    (other : Fin B → Nat → Int) (ho : NoiseOk c other) (i : Fin B) (hnd : (pushes.map fun v => v i).Nodup) (order : List Int)
    (hp : order.Perm (pushes.map fun v => v i)) :
    chance (Finset.univ : Finset (Equiv.Perm (Fin c.maxLength))) (fun π =>
      (((CBag.run c (CBag.new c B) ((pushes.map fun v => ((.push v fun _ => true : Spec.Bag.Call B), fun _ _ => (0 : Int))) ++
        List.replicate pushes.length (.pop fun _ => true,
          fun i' j => if i' = i then (if h : j < c.maxLength then ((π ⟨j, h⟩).val : Int) else 0) else other i' j))).drop pushes.length).map
        fun p => p.2.map fun f => f i) = order.map .ok) =
    1 / ((pushes.length.factorial : ℕ) : ℚ) := by
  have hI0 : Inv c (CBag.new c B) ⟨false, fun _ => 0⟩ := by
    refine ⟨rfl, fun _ i => ⟨[], rfl, ?_⟩, fun h => by simp at h⟩
    exact ⟨CList.rep_new _ ⟨rfl, rfl⟩, fun h => absurd rfl h, by simp, fun j _ _ => rfl⟩
  obtain ⟨s', hI, hs, hrem⟩ := pushes_inv hc pushes hin (CBag.new c B) ⟨false, fun _ => 0⟩ hI0 rfl (fun i => by simpa using hcap)
  set b := (pushes.map fun v => ((.push v fun _ => true : Spec.Bag.Call B), fun _ _ => (0 : Int))).foldl
        (fun b p => (CBag.exec c p.2 b p.1).state) (CBag.new c B) with hb
  choose l hl hf using hI.filling hs
  have hlp : ∀ i, (l i).Perm (pushes.map fun v => v i) := by
    intro i
    have := hl i
    rw [hrem i] at this
    simpa using this
  have hlen : ∀ i, (l i).length = pushes.length := fun i => by rw [(hlp i).length_eq, List.length_map]
  have hlnd : (l i).Nodup := (hlp i).nodup_iff.mpr hnd
  -- the order of positions which gives this order of items
  have hol : order.reverse.Perm (l i) := (List.reverse_perm order).trans (hp.trans (hlp i).symm)
  let oN : List Nat := order.reverse.map fun x => (l i).idxOf x
  have hoNlt : ∀ j ∈ oN, j < (l i).length := by
    intro j hj
    obtain ⟨x, hx, rfl⟩ := List.mem_map.mp hj
    exact List.idxOf_lt_length_iff.mpr (hol.mem_iff.mp hx)
  have hoNl : (oN.map fun j => (l i).getD j 0) = order.reverse := by
    simp only [oN, List.map_map]
    conv_rhs => rw [← List.map_id order.reverse]
    apply List.map_congr_left
    intro x hx
    have hlt : (l i).idxOf x < (l i).length := List.idxOf_lt_length_iff.mpr (hol.mem_iff.mp hx)
    simp [Function.comp, List.getD_eq_getElem?_getD, List.getElem?_eq_getElem hlt, List.getElem_idxOf hlt]
  have hoNnd : oN.Nodup := by
    apply List.Nodup.of_map (fun j => (l i).getD j 0)
    rw [hoNl]; exact hol.nodup_iff.mpr hlnd
  have hoNp : oN.Perm (List.range pushes.length) := by
    refine List.Subperm.perm_of_length_le (List.subperm_of_subset hoNnd fun j hj => ?_) ?_
    · rw [List.mem_range, ← hlen i]; exact hoNlt j hj
    · simp only [oN, List.length_range, List.length_map]
      rw [hol.length_eq, hlen i]
  have hoNlt' : ∀ j ∈ oN, j < c.maxLength := fun j hj => by have := hoNlt j hj; rw [hlen i] at this; omega
  let oF : List (Fin c.maxLength) := oN.pmap (fun j h => ⟨j, h⟩) hoNlt'
  have hoF : oF.map Fin.val = oN := by
    simp only [oF, List.map_pmap]
    rw [List.pmap_eq_map]; simp
  have hoFnd : oF.Nodup := by
    apply List.Nodup.of_map Fin.val
    rw [hoF]; exact hoNnd
  have hmain := chance_order (fun a : Fin c.maxLength => -(a.val : ℤ)) (fun a b h => Fin.ext (by simpa using h)) oF hoFnd
  have hoFl : oF.length = pushes.length := by
    have : (oF.map Fin.val).length = oN.length := by rw [hoF]
    rw [List.length_map] at this
    rw [this, hoNp.length_eq, List.length_range]
  rw [hoFl] at hmain
  rw [← hmain]
  apply chance_congr
  intro π _
  set noise : Fin B → Nat → Int := fun i' j => if i' = i then (if h : j < c.maxLength then ((π ⟨j, h⟩).val : Int) else 0) else other i' j with hnoise
  have hn : NoiseOk c noise := by
    intro i' j hj
    simp only [hnoise]
    split
    · have := (π ⟨j, hj⟩).isLt
      omega
    · exact ho i' j hj
  have hni : ∀ a : Fin c.maxLength, noise i a.val = (π a).val := by
    intro a; simp [hnoise]
  obtain ⟨o, ho1, ho2, ho3⟩ := pops_order hc noise hn pushes.length b (by rw [hI.phase, hs]) l hf hlen i
  rw [run_append, List.drop_append_of_le_length (by rw [run_length]; simp), List.drop_of_length_le (by rw [run_length]; simp), List.nil_append, ← hb, ho3]
  have holt : ∀ j ∈ o, j < c.maxLength := fun j hj => by have := List.mem_range.mp (ho1.mem_iff.mp hj); omega
  have strict : ∀ q : List Nat, q.Nodup → (hq : ∀ j ∈ q, j < c.maxLength) → (q.Pairwise fun a b => noise i b ≤ noise i a) →
      q.Pairwise fun a b => noise i b < noise i a := by
    intro q hq hlt hpw
    refine List.Pairwise.imp_of_mem (fun {a b} ha hb' h => ?_) (hpw.and hq)
    refine lt_of_le_of_ne h.1 fun e => h.2 ?_
    have ea := hni ⟨a, hlt a ha⟩
    have eb := hni ⟨b, hlt b hb'⟩
    simp only at ea eb
    rw [ea, eb] at e
    have e1 : π ⟨b, hlt b hb'⟩ = π ⟨a, hlt a ha⟩ := Fin.ext (by exact_mod_cast e)
    have e2 := π.injective e1
    simpa using (congrArg Fin.val e2).symm
  have hond : o.Nodup := ho1.nodup_iff.mpr List.nodup_range
  have hiff : (oF.Pairwise fun a b => -((π a).val : ℤ) < -((π b).val : ℤ)) ↔ oN.Pairwise fun a b => noise i b < noise i a := by
    rw [← hoF, List.pairwise_map]
    simp only [hni]
    constructor <;> intro h <;> exact h.imp fun {a b} h => by omega
  rw [hiff]
  constructor
  · intro h
    have h1 : (o.map fun j => (l i).getD j 0).reverse = order := by
      exact (List.map_injective_iff.mpr fun a b h => by injection h) h
    have h2 : (o.map fun j => (l i).getD j 0) = oN.map fun j => (l i).getD j 0 := by rw [hoNl, ← h1, List.reverse_reverse]
    have h3 : o = oN := by
      have hoo : ∀ j ∈ o, j < (l i).length := fun j hj => by rw [hlen i]; exact List.mem_range.mp (ho1.mem_iff.mp hj)
      apply List.ext_getElem
      · simpa using congrArg List.length h2
      · intro k hk1 hk2
        have e := congrArg (fun q : List Int => q[k]?) h2
        simp only [List.getElem?_map, List.getElem?_eq_getElem hk1, List.getElem?_eq_getElem hk2, Option.map_some, Option.some.injEq] at e
        have b1 := hoo _ (List.getElem_mem hk1)
        have b2 := hoNlt _ (List.getElem_mem hk2)
        simp only [List.getD_eq_getElem?_getD, List.getElem?_eq_getElem b1, List.getElem?_eq_getElem b2, Option.getD_some] at e
        exact (List.Nodup.getElem_inj_iff hlnd).mp e
    rw [← h3]
    exact strict o hond holt ho2
  · intro h
    have : o = oN := List.Perm.eq_of_pairwise (le := fun a b => noise i b < noise i a)
      (fun a b _ _ hab hba => absurd (lt_trans hab hba) (lt_irrefl _)) (strict o hond holt ho2) h (ho1.trans hoNp.symm)
    rw [this, hoNl, List.reverse_reverse]

/-- Two bags of capacity 3; the first is filled with 2 and 0. -/
example : Cfg.Ok ⟨3, 0, 3, 64⟩ ∧ NoiseOk ⟨3, 0, 3, 64⟩ (fun (_ : Fin 2) j => (j : Int)) ∧ ([0, 2] : List Int).Perm ([![2, 1], ![0, 1]].map fun v : Fin 2 → Int => v 0) :=
  ⟨⟨by decide, by decide, by decide, by decide, by decide, by decide⟩, fun _ j hj => ⟨by simp, by simpa using hj⟩, by decide⟩

end bag

end EvoTorch.Chances
