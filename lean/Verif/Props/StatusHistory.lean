import Verif.Model.StatusHistory
import Mathlib.Tactic.Common
import Mathlib.Order.Basic
/-!
C163: what a status reported stays what it was when the search goes on.
-/
namespace EvoTorch.StatusHistory
variable {T : Type}

/-- The tensors which steps overwrite: those of the population and of the batches of the current step. -/
def owned (st : S T) : List Nat := (st.pop.toList ++ st.scratch).flatMap fun b => [b.vals, b.evs]

theorem mem_owned (st : S T) (r : Nat) : r ∈ owned st ↔ ∃ b, (st.pop = some b ∨ b ∈ st.scratch) ∧ (r = b.vals ∨ r = b.evs) := by
  simp only [owned, List.mem_flatMap, List.mem_append, Option.mem_toList, List.mem_cons, List.not_mem_nil, or_false]

/-- A tensor that exists and is not overwritten by steps. -/
def Safe (O : List Nat) (mem : Mem T) (r : Nat) : Prop := r < mem.cells.length ∧ r ∉ O

structure MemInv (O : List Nat) (mem : Mem T) : Prop where
  own : ∀ r ∈ O, r < mem.cells.length
  sols : ∀ xs ∈ mem.lists, ∀ s, some s ∈ xs → Safe O mem s.vals ∧ Safe O mem s.evs

structure Inv (st : S T) : Prop where
  mem : MemInv (owned st) st.mem
  center : ∀ r, st.center = some r → Safe (owned st) st.mem r
  spread : ∀ r, st.spread = some r → Safe (owned st) st.mem r

/-- The cells of `mem` that are not in `O` are untouched in `mem'`. -/
def Frame (O : List Nat) (mem mem' : Mem T) : Prop :=
  mem.cells.length ≤ mem'.cells.length ∧ ∀ r, Safe O mem r → mem'.cells[r]? = mem.cells[r]?

theorem Frame.refl (O : List Nat) (mem : Mem T) : Frame O mem mem := ⟨Nat.le_refl _, fun _ _ => rfl⟩

theorem Frame.safe {O : List Nat} {mem mem' : Mem T} (h : Frame O mem mem') {r : Nat} (hr : Safe O mem r) : Safe O mem' r := ⟨Nat.lt_of_lt_of_le hr.1 h.1, hr.2⟩

theorem Frame.trans {O : List Nat} {a b c : Mem T} (h : Frame O a b) (h' : Frame O b c) : Frame O a c :=
  ⟨Nat.le_trans h.1 h'.1, fun r hr => (h'.2 r (h.safe hr)).trans (h.2 r hr)⟩

theorem frame_alloc (O : List Nat) (mem : Mem T) (t : T) : Frame O mem (mem.alloc t).1 := by
  refine ⟨by simp [Mem.alloc], fun r hr => ?_⟩
  simp [Mem.alloc, List.getElem?_append_left hr.1]

theorem frame_allocSol (O : List Nat) (mem : Mem T) (v e : T) : Frame O mem (mem.allocSol v e).1 :=
  (frame_alloc O mem v).trans (frame_alloc O _ e)

theorem frame_write (O : List Nat) (mem : Mem T) (r : Nat) (hr : r ∈ O) (t : T) : Frame O mem (mem.write r t) := by
  refine ⟨by simp [Mem.write], fun q hq => ?_⟩
  have : r ≠ q := fun h => hq.2 (h ▸ hr)
  simp [Mem.write, List.getElem?_set_ne this]

theorem inv_frame {O : List Nat} {mem mem' : Mem T} (h : MemInv O mem) (hf : Frame O mem mem') (hl : mem'.lists = mem.lists) : MemInv O mem' :=
  ⟨fun r hr => Nat.lt_of_lt_of_le (h.own r hr) hf.1, fun xs hxs s hs => ⟨hf.safe (h.sols xs (hl ▸ hxs) s hs).1, hf.safe (h.sols xs (hl ▸ hxs) s hs).2⟩⟩

theorem fresh_safe {O : List Nat} {mem : Mem T} (h : MemInv O mem) (v e : T) :
    Safe O (mem.allocSol v e).1 (mem.allocSol v e).2.vals ∧ Safe O (mem.allocSol v e).1 (mem.allocSol v e).2.evs := by
  constructor
  · refine ⟨by simp [Mem.allocSol, Mem.alloc], fun hm => ?_⟩
    have := h.own _ hm
    simp [Mem.allocSol, Mem.alloc] at this
  · refine ⟨by simp [Mem.allocSol, Mem.alloc], fun hm => ?_⟩
    have := h.own _ hm
    simp [Mem.allocSol, Mem.alloc] at this
    omega

theorem track_ok {O : List Nat} (us : List (Option (T × T))) : ∀ (mem : Mem T) (l i : Nat), MemInv O mem →
    MemInv O (track mem l i us) ∧ Frame O mem (track mem l i us) := by
  induction us with
  | nil => intro mem l i h; exact ⟨h, Frame.refl _ _⟩
  | cons u us ih =>
    intro mem l i h
    cases u with
    | none => exact ih mem l (i + 1) h
    | some p =>
      obtain ⟨v, e⟩ := p
      have hf := frame_allocSol O mem v e
      have h1 : MemInv O (mem.allocSol v e).1 := inv_frame h hf rfl
      have hs := fresh_safe h v e
      have h2 : MemInv O { (mem.allocSol v e).1 with lists := (mem.allocSol v e).1.lists.modify l fun xs => xs.set i (some (mem.allocSol v e).2) } := by
        refine ⟨h1.own, fun xs hxs s hs' => ?_⟩
        obtain ⟨k, hk, rfl⟩ := List.mem_iff_getElem.mp hxs
        simp only [List.getElem_modify] at hs'
        split at hs'
        · rcases List.mem_or_eq_of_mem_set hs' with hs' | hs'
          · exact h1.sols _ (List.getElem_mem _) s hs'
          · cases hs'; exact hs
        · exact h1.sols _ (List.getElem_mem _) s hs'
      have := ih _ l (i + 1) h2
      refine ⟨this.1, (hf.trans ?_).trans this.2⟩
      exact ⟨Nat.le_refl _, fun _ _ => rfl⟩

theorem evaluate_ok (m : Nat) (st : S T) (h : Inv st) (b : Sol) (hb : b.evs ∈ owned st) (evs : T) (bs ws : List (Option (T × T))) :
    Inv (evaluate m st b evs bs ws) ∧ owned (evaluate m st b evs bs ws) = owned st ∧ Frame (owned st) st.mem (evaluate m st b evs bs ws).mem := by
  have hfw := frame_write (owned st) st.mem b.evs hb evs
  have h1 : MemInv (owned st) (st.mem.write b.evs evs) := inv_frame h.mem hfw rfl
  have key : MemInv (owned st) (evaluate m st b evs bs ws).mem ∧ Frame (owned st) st.mem (evaluate m st b evs bs ws).mem := by
    unfold evaluate
    rcases hp : st.prob with _ | ⟨lb, lw⟩
    · have h2 : MemInv (owned st) ({ (st.mem.write b.evs evs) with lists := (st.mem.write b.evs evs).lists ++ [List.replicate m none, List.replicate m none] } : Mem T) := by
        refine ⟨h1.own, fun xs hxs s hs => ?_⟩
        rcases List.mem_append.mp hxs with hxs | hxs
        · exact h1.sols xs hxs s hs
        · simp at hxs
          subst hxs
          simp [List.mem_replicate] at hs
      have a := track_ok bs _ (st.mem.write b.evs evs).lists.length 0 h2
      have c := track_ok ws _ ((st.mem.write b.evs evs).lists.length + 1) 0 a.1
      refine ⟨c.1, ((hfw.trans ?_).trans a.2).trans c.2⟩
      exact ⟨Nat.le_refl _, fun _ _ => rfl⟩
    · have a := track_ok bs _ lb 0 h1
      have c := track_ok ws _ lw 0 a.1
      exact ⟨c.1, (hfw.trans a.2).trans c.2⟩
  have ho : owned (evaluate m st b evs bs ws) = owned st := rfl
  refine ⟨⟨ho ▸ key.1, fun r hr => ?_, fun r hr => ?_⟩, ho, key.2⟩
  · rw [ho]; exact key.2.safe (h.center r hr)
  · rw [ho]; exact key.2.safe (h.spread r hr)

/-- Whatever is safe before is safe, and unchanged, afterwards. -/
def Keeps (st st' : S T) : Prop := ∀ r, Safe (owned st) st.mem r → Safe (owned st') st'.mem r ∧ st'.mem.cells[r]? = st.mem.cells[r]?

theorem Keeps.trans {a b c : S T} (h : Keeps a b) (h' : Keeps b c) : Keeps a c :=
  fun r hr => ⟨(h' r (h r hr).1).1, (h' r (h r hr).1).2.trans (h r hr).2⟩

theorem act_ok (m : Nat) (st : S T) (h : Inv st) (a : Act T) : Inv (act m st a) ∧ Keeps st (act m st a) := by
  have same : ∀ st' : S T, Inv st' → owned st' = owned st → Frame (owned st) st.mem st'.mem → Inv st' ∧ Keeps st st' :=
    fun st' hi ho hf => ⟨hi, fun r hr => ⟨ho ▸ hf.safe hr, hf.2 r hr⟩⟩
  have smaller : ∀ st' : S T, st'.mem = st.mem → st'.center = st.center → st'.spread = st.spread → (∀ r ∈ owned st', r ∈ owned st) → Inv st' ∧ Keeps st st' := by
    intro st' hm hc hs ho
    have hsafe : ∀ r, Safe (owned st) st.mem r → Safe (owned st') st'.mem r := fun r hr => ⟨hm ▸ hr.1, fun q => hr.2 (ho r q)⟩
    refine ⟨⟨⟨fun r hr => hm ▸ h.mem.own r (ho r hr), fun xs hxs s hs => ?_⟩, fun r hr => hsafe r (h.center r (hc ▸ hr)), fun r hr => hsafe r (h.spread r (hs ▸ hr))⟩, fun r hr => ⟨hsafe r hr, by rw [hm]⟩⟩
    have := h.mem.sols xs (hm ▸ hxs) s hs
    exact ⟨hsafe _ this.1, hsafe _ this.2⟩
  cases a with
  | create v e =>
    have hf := frame_allocSol (owned st) st.mem v e
    have hsafe : ∀ r, Safe (owned st) st.mem r → Safe (owned (act m st (.create v e))) (act m st (.create v e)).mem r := by
      intro r hr
      refine ⟨Nat.lt_of_lt_of_le hr.1 hf.1, fun hm => ?_⟩
      obtain ⟨b, hb, hrb⟩ := (mem_owned _ r).mp hm
      simp only [act, List.mem_append, List.mem_singleton] at hb
      have : b ≠ (st.mem.allocSol v e).2 := by
        rintro rfl
        have := hr.1
        simp [Mem.allocSol, Mem.alloc] at hrb
        omega
      refine hr.2 ((mem_owned st r).mpr ⟨b, ?_, hrb⟩)
      rcases hb with hb | hb | hb
      · exact Or.inl hb
      · exact Or.inr hb
      · exact absurd hb this
    refine ⟨⟨⟨fun r hr => ?_, fun xs hxs s hs => ?_⟩, fun r hr => hsafe r (h.center r hr), fun r hr => hsafe r (h.spread r hr)⟩, fun r hr => ⟨hsafe r hr, hf.2 r hr⟩⟩
    · obtain ⟨b, hb, hrb⟩ := (mem_owned _ r).mp hr
      simp only [act, List.mem_append, List.mem_singleton] at hb
      have old : r ∈ owned st → r < (act m st (.create v e)).mem.cells.length := fun q => Nat.lt_of_lt_of_le (h.mem.own r q) hf.1
      rcases hb with hb | hb | hb
      · exact old ((mem_owned st r).mpr ⟨b, Or.inl hb, hrb⟩)
      · exact old ((mem_owned st r).mpr ⟨b, Or.inr hb, hrb⟩)
      · subst hb
        simp [Mem.allocSol, Mem.alloc] at hrb
        simp only [act, Mem.allocSol, Mem.alloc, List.length_append, List.length_singleton]
        omega
    · have := h.mem.sols xs hxs s hs
      exact ⟨hsafe _ this.1, hsafe _ this.2⟩
  | adopt i =>
    rcases hi : st.scratch[i]? with _ | b
    · have : act m st (.adopt i) = st := by simp [act, hi]
      rw [this]; exact smaller st rfl rfl rfl fun _ q => q
    · have : act m st (.adopt i) = { st with pop := some b } := by simp [act, hi]
      rw [this]
      refine smaller _ rfl rfl rfl fun r hr => ?_
      obtain ⟨c, hc, hrc⟩ := (mem_owned _ r).mp hr
      refine (mem_owned st r).mpr ⟨c, Or.inr ?_, hrc⟩
      rcases hc with hc | hc
      · cases hc; exact List.mem_of_getElem? hi
      · exact hc
  | fill v nan =>
    rcases hp : st.pop with _ | b
    · have : act m st (.fill v nan) = st := by simp [act, hp]
      rw [this]; exact smaller st rfl rfl rfl fun _ q => q
    · have e : act m st (.fill v nan) = { st with mem := (st.mem.write b.vals v).write b.evs nan } := by simp [act, hp]
      rw [e]
      have hf : Frame (owned st) st.mem ((st.mem.write b.vals v).write b.evs nan) :=
        (frame_write _ _ _ ((mem_owned st _).mpr ⟨b, Or.inl hp, Or.inl rfl⟩) v).trans (frame_write _ _ _ ((mem_owned st _).mpr ⟨b, Or.inl hp, Or.inr rfl⟩) nan)
      exact same _ ⟨inv_frame h.mem hf rfl, fun r hr => hf.safe (h.center r hr), fun r hr => hf.safe (h.spread r hr)⟩ rfl hf
  | evaluate i evs bs ws =>
    cases i with
    | none =>
      rcases hp : st.pop with _ | b
      · have : act m st (.evaluate none evs bs ws) = st := by simp [act, hp]
        rw [this]; exact smaller st rfl rfl rfl fun _ q => q
      · have e : act m st (.evaluate none evs bs ws) = evaluate m st b evs bs ws := by simp [act, hp]
        rw [e]
        obtain ⟨a1, a2, a3⟩ := evaluate_ok m st h b ((mem_owned st _).mpr ⟨b, Or.inl hp, Or.inr rfl⟩) evs bs ws
        exact same _ a1 a2 a3
    | some i =>
      rcases hi : st.scratch[i]? with _ | b
      · have : act m st (.evaluate (some i) evs bs ws) = st := by simp [act, hi]
        rw [this]; exact smaller st rfl rfl rfl fun _ q => q
      · have e : act m st (.evaluate (some i) evs bs ws) = evaluate m st b evs bs ws := by simp [act, hi]
        rw [e]
        obtain ⟨a1, a2, a3⟩ := evaluate_ok m st h b ((mem_owned st _).mpr ⟨b, Or.inr (List.mem_of_getElem? hi), Or.inr rfl⟩) evs bs ws
        exact same _ a1 a2 a3
  | center t =>
    have hf := frame_alloc (owned st) st.mem t
    refine same _ ⟨inv_frame h.mem hf rfl, fun r hr => ?_, fun r hr => hf.safe (h.spread r hr)⟩ rfl hf
    simp only [act, Option.some.injEq] at hr
    subst hr
    exact ⟨by simp [act, Mem.alloc], fun q => absurd (h.mem.own _ q) (by simp [Mem.alloc])⟩
  | spread t =>
    have hf := frame_alloc (owned st) st.mem t
    refine same _ ⟨inv_frame h.mem hf rfl, fun r hr => hf.safe (h.center r hr), fun r hr => ?_⟩ rfl hf
    simp only [act, Option.some.injEq] at hr
    subst hr
    exact ⟨by simp [act, Mem.alloc], fun q => absurd (h.mem.own _ q) (by simp [Mem.alloc])⟩

theorem report_ok (m : Nat) (st : S T) (h : Inv st) (item : Item) (row : T × T) :
    Inv (report m st item row).1 ∧ Keeps st (report m st item row).1 := by
  have id : Inv st ∧ Keeps st st := ⟨h, fun r hr => ⟨hr, rfl⟩⟩
  cases item with
  | center => exact id
  | spread => exact id
  | best => exact id
  | worst => exact id
  | popBest =>
    rcases hp : st.pop with _ | b
    · have : (report m st .popBest row).1 = st := by simp [report, hp]
      rw [this]; exact id
    · have e : (report m st .popBest row).1 = { st with mem := (st.mem.allocSol row.1 row.2).1 } := by simp [report, hp]
      rw [e]
      have hf := frame_allocSol (owned st) st.mem row.1 row.2
      exact ⟨⟨inv_frame h.mem hf rfl, fun r hr => hf.safe (h.center r hr), fun r hr => hf.safe (h.spread r hr)⟩, fun r hr => ⟨hf.safe hr, hf.2 r hr⟩⟩

theorem event_ok (m : Nat) (st : S T) (h : Inv st) (e : Event T) : Inv (event m st e) ∧ Keeps st (event m st e) := by
  cases e with
  | read item row => exact report_ok m st h item row
  | step as =>
    have hsub : ∀ r ∈ owned ({ st with scratch := [] } : S T), r ∈ owned st := by
      intro r hr
      obtain ⟨b, hb, hrb⟩ := (mem_owned _ r).mp hr
      refine (mem_owned st r).mpr ⟨b, ?_, hrb⟩
      rcases hb with hb | hb
      · exact Or.inl hb
      · simp at hb
    have hsafe : ∀ r, Safe (owned st) st.mem r → Safe (owned ({ st with scratch := [] } : S T)) st.mem r := fun r hr => ⟨hr.1, fun q => hr.2 (hsub r q)⟩
    have h0 : Inv ({ st with scratch := [] } : S T) :=
      ⟨⟨fun r hr => h.mem.own r (hsub r hr), fun xs hxs s hs => ⟨hsafe _ (h.mem.sols xs hxs s hs).1, hsafe _ (h.mem.sols xs hxs s hs).2⟩⟩,
        fun r hr => hsafe r (h.center r hr), fun r hr => hsafe r (h.spread r hr)⟩
    have gen : ∀ (as : List (Act T)) (st : S T), Inv st → Inv (as.foldl (act m) st) ∧ Keeps st (as.foldl (act m) st) := by
      intro as
      induction as with
      | nil => intro st h; exact ⟨h, fun r hr => ⟨hr, rfl⟩⟩
      | cons a as ih =>
        intro st h
        have h1 := act_ok m st h a
        have h2 := ih _ h1.1
        exact ⟨h2.1, h1.2.trans h2.2⟩
    have := gen as _ h0
    refine ⟨this.1, fun r hr => ?_⟩
    exact this.2 r (hsafe r hr)

theorem run_ok (m : Nat) (es : List (Event T)) : ∀ st : S T, Inv st → Inv (run m st es) ∧ Keeps st (run m st es) := by
  induction es with
  | nil => intro st h; exact ⟨h, fun r hr => ⟨hr, rfl⟩⟩
  | cons e es ih =>
    intro st h
    have h1 := event_ok m st h e
    have h2 := ih _ h1.1
    exact ⟨h2.1, h1.2.trans h2.2⟩

theorem new_inv (center spread : Option T) (pop : Option (T × T)) : Inv (new center spread pop) := by
  rcases center with _ | c <;> rcases spread with _ | s <;> rcases pop with _ | ⟨v, e⟩ <;>
    (refine ⟨⟨?_, ?_⟩, ?_, ?_⟩ <;> simp [new, owned, Mem.alloc, Mem.allocSol, Safe])

/-- C163: what a status reported of the center, of the spread, of the best solution of the population, and, if the problem has one objective, of the best and the worst solution so far, looks the
same after any further steps and reads of the status. -/
theorem C163_reports_stay_partial (m : Nat) (center spread : Option T) (pop : Option (T × T)) (before later : List (Event T)) (item : Item) (row : T × T)
    (hm : (item = .best ∨ item = .worst) → m = 1) (v : Value)
    (hv : (report m (run m (new center spread pop) before) item row).2 = some v) :
    let reported := (report m (run m (new center spread pop) before) item row).1
    look (run m reported later).mem v = look reported.mem v := by
  intro reported
  have h := (run_ok m before _ (new_inv center spread pop)).1
  set st := run m (new center spread pop) before
  have h1 := report_ok m st h item row
  have h2 := run_ok m later _ h1.1
  have fin1 : ∀ r, Safe (owned reported) reported.mem r → (run m reported later).mem.cells[r]? = reported.mem.cells[r]? := fun r hr => (h2.2 r hr).2
  have tens : ∀ r, Safe (owned reported) reported.mem r → look (run m reported later).mem (.tensor r) = look reported.mem (.tensor r) := by
    intro r hr; simp only [look, fin1 r hr]
  have sol : ∀ s : Sol, Safe (owned reported) reported.mem s.vals → Safe (owned reported) reported.mem s.evs →
      look (run m reported later).mem (.solution s) = look reported.mem (.solution s) := by
    intro s a b; simp only [look, fin1 _ a, fin1 _ b]
  have lst : m = 1 → ∀ l, reportList m st.mem l = some v → reported = st → look (run m reported later).mem v = look reported.mem v := by
    intro hm1 l hl hst
    simp only [reportList, hm1, if_true, Option.map_eq_some_iff] at hl
    obtain ⟨s, hs, rfl⟩ := hl
    simp only [Option.join_eq_some_iff, Option.bind_eq_some_iff] at hs
    obtain ⟨xs, hxs, hs⟩ := hs
    have := h.mem.sols xs (List.mem_of_getElem? hxs) s (List.mem_of_getElem? hs)
    rw [hst] at sol ⊢
    exact sol s this.1 this.2
  cases item with
  | center =>
    simp only [report, Option.map_eq_some_iff] at hv
    obtain ⟨r, hr, rfl⟩ := hv
    exact tens r (h.center r hr)
  | spread =>
    simp only [report, Option.map_eq_some_iff] at hv
    obtain ⟨r, hr, rfl⟩ := hv
    exact tens r (h.spread r hr)
  | best =>
    simp only [report, Option.bind_eq_some_iff] at hv
    obtain ⟨p, hp, hv⟩ := hv
    exact lst (hm (Or.inl rfl)) p.1 hv rfl
  | worst =>
    simp only [report, Option.bind_eq_some_iff] at hv
    obtain ⟨p, hp, hv⟩ := hv
    exact lst (hm (Or.inr rfl)) p.2 hv rfl
  | popBest =>
    rcases hp : st.pop with _ | b
    · simp [report, hp] at hv
    · have e : report m st .popBest row = ({ st with mem := (st.mem.allocSol row.1 row.2).1 }, some (.solution (st.mem.allocSol row.1 row.2).2)) := by simp [report, hp]
      rw [e] at hv
      simp only [Option.some.injEq] at hv
      subst hv
      have hs := fresh_safe h.mem row.1 row.2
      have er : reported = { st with mem := (st.mem.allocSol row.1 row.2).1 } := congrArg Prod.fst e
      refine sol _ ?_ ?_
      · rw [er]; exact hs.1
      · rw [er]; exact hs.2

/-- C163, whatever the number of objectives: the solutions in the lists of best and worst solutions stay what they are, so that a copy `list(status["best"])` is not changed by further steps. -/
theorem C163_listed_solutions_stay (m : Nat) (center spread : Option T) (pop : Option (T × T)) (before later : List (Event T)) (l : Nat) (xs : List (Option Sol))
    (hxs : (run m (new center spread pop) before).mem.lists[l]? = some xs) (s : Sol) (hs : some s ∈ xs) :
    look (run m (run m (new center spread pop) before) later).mem (.solution s) = look (run m (new center spread pop) before).mem (.solution s) := by
  have h := (run_ok m before _ (new_inv center spread pop)).1
  have h2 := run_ok m later _ h
  have := h.mem.sols xs (List.mem_of_getElem? hxs) s hs
  simp only [look, (h2.2 _ this.1).2, (h2.2 _ this.2).2]

/-- C163 fails for the lists of best and worst solutions of a problem with several objectives: the reported list is the one which the problem goes on using. Here (two objectives, a genetic algorithm,
evaluations as pairs) the list reported after the first step shows the evaluations `(5, 5)` twice; after the second step, which finds a better solution for the first objective, the same list shows
`(1, 7)` in the first place. -/
theorem C163_violated_lists :
    let step (v : Nat) (e : Nat × Nat) (better : List (Option ((Nat × Nat) × (Nat × Nat)))) : List (Act (Nat × Nat)) := genetic none ((v, v), (0, 0), ⟨e, better, [none, none]⟩) (some ((v, v), e))
    let start := new (T := Nat × Nat) none none (some ((0, 0), (0, 0)))
    let one := run 2 start [.step (step 10 (5, 5) [some ((10, 10), (5, 5)), some ((10, 10), (5, 5))])]
    let two := run 2 one [.step (step 20 (1, 7) [some ((20, 20), (1, 7)), none])]
    ∃ v, (report 2 one .best ((0, 0), (0, 0))).2 = some v ∧
      look one.mem v = .list [some (some (10, 10), some (5, 5)), some (some (10, 10), some (5, 5))] ∧
      look two.mem v = .list [some (some (20, 20), some (1, 7)), some (some (10, 10), some (5, 5))] :=
  ⟨.list 0, by decide +kernel, by decide +kernel, by decide +kernel⟩

-- the steps of the searchers: after each of them something is reported
example : let st := run 1 (new (T := Nat) (some 1) (some 2) none) [.step (gaussian true 0 0 none 3 0 ⟨4, [some (5, 6)], [some (7, 8)]⟩)]
    let later := run 1 st [.step (gaussian false 11 12 (some 13) 14 0 ⟨15, [some (16, 17)], [none]⟩)]
    (report 1 st .center (0, 0)).2.map (look st.mem) = some (.tensor (some 1)) ∧ (report 1 st .center (0, 0)).2.map (look later.mem) = some (.tensor (some 1)) ∧
    (report 1 later .center (0, 0)).2.map (look later.mem) = some (.tensor (some 11)) ∧
    (report 1 st .best (0, 0)).2.map (look st.mem) = some (.solution (some 5) (some 6)) ∧ (report 1 later .best (0, 0)).2.map (look later.mem) = some (.solution (some 16) (some 17)) ∧
    (report 1 st .best (0, 0)).2.map (look later.mem) = some (.solution (some 5) (some 6)) := by decide +kernel

example : let st := run 1 (new (T := Nat) (some 1) (some 2) none) [.step (adaptive true 0 0 none [(3, 0, ⟨4, [some (5, 6)], [some (7, 8)]⟩), (9, 0, ⟨10, [none], [none]⟩)] 12 13)]
    (report 1 st .worst (0, 0)).2.map (look st.mem) = some (.solution (some 7) (some 8)) ∧ st.pop.map (fun b => look st.mem (.solution b)) = some (.solution (some 12) (some 13)) := by decide +kernel

example : let st := run 1 (new (T := Nat) (some 1) (some 2) (some (0, 0))) [.step (cmaes 3 0 ⟨4, [some (5, 6)], [some (7, 8)]⟩ 21 22)]
    (report 1 st .spread (0, 0)).2.map (look st.mem) = some (.tensor (some 22)) := by decide +kernel

end EvoTorch.StatusHistory
