import Verif.Lemmas.ParamRunStage

namespace Verif.Params

variable {V S W : Type} {done bs : List Builder} {c : Collection}

/-! ## From one stage to the next -/

theorem Known.mono {H H' : History V S W} {zero : V} {known known' : Stage → Prop} {st st' : Stage} {t t' : Nat}
    {store : Slot → V} (h : Known c H zero known st t store) (hk : ∀ a, known' a → known a)
    (hm : ∀ a m, known' a → H.meaning zero st t m a.shape = H'.meaning zero st' t' m a.shape) :
    Known c H' zero known' st' t' store := by
  intro a p s ha hp hs
  rw [h a p s (hk a ha) hp hs, hm a _ ha]

theorem known_zero (c : Collection) (H : History V S W) (zero : V) :
    Known c H zero (prior .const) .const 0 (fun _ => zero) := by
  intro a p s ha hp hs
  rcases ha with ha | ⟨rfl, -⟩
  · simp [Stage.rank] at ha
  · rfl

theorem Known.start {H : History V S W} {zero : V} {store : Slot → V}
    (h : Known c H zero (past .const) .const 0 store) : Known c H zero (prior .simple) .simple 0 store := by
  refine h.mono ?_ ?_ <;> intro a
  · cases a <;> simp [prior, past, Stage.rank]
  · intro m; cases a <;> simp [prior, Stage.rank, Stage.shape, History.meaning]

theorem Known.toBefore {H : History V S W} {zero : V} {t : Nat} {store : Slot → V}
    (h : Known c H zero (past .simple) .simple t store) : Known c H zero (prior .before) .before t store := by
  refine h.mono ?_ ?_ <;> intro a
  · cases a <;> simp [prior, past, Stage.rank]
  · intro m; cases a <;> simp [prior, Stage.rank, Stage.shape, History.meaning]

theorem Known.toAfter {H : History V S W} {zero : V} {t : Nat} {store : Slot → V}
    (h : Known c H zero (past .before) .before t store) : Known c H zero (prior .after) .after t store := by
  refine h.mono ?_ ?_ <;> intro a
  · cases a <;> simp [prior, past, Stage.rank]
  · intro m; cases a <;> simp [prior, Stage.rank, Stage.shape, History.meaning]

theorem Known.toNext {H : History V S W} {zero : V} {t : Nat} {store : Slot → V}
    (h : Known c H zero (past .after) .after t store) : Known c H zero (prior .simple) .simple (t + 1) store := by
  refine h.mono ?_ ?_ <;> intro a
  · cases a <;> simp [prior, past, Stage.rank]
  · intro m
    cases a <;> simp [prior, Stage.rank, Stage.shape, History.meaning, History.previous]

/-- A stage adds its values. -/
theorem Inv.known_step (h : Inv done c) {H : History V S W} {zero : V} {st : Stage} {t : Nat}
    (ht : st = .const → t = 0) {x x' : Scene V S W} (hk : Known c H zero (prior st) st t x.store)
    (hkeep : Keeps (c.ops st) x x')
    (hv : ∀ p ∈ c.ops st, ∀ s, p.out = some s → x'.store s = H.value t st p.name) :
    Known c H zero (past st) st t x'.store := by
  intro st' p s hp hm ho
  have hs := h.outStage hm ho
  by_cases he : st' = st
  · subst he
    rw [hv p hm s ho]
    cases st' with
    | const => rw [ht rfl]; rfl
    | simple => rfl
    | before => rfl
    | after => simp [Stage.shape, History.meaning]
  · rw [hkeep.store s]
    · refine hk st' p s ?_ hm ho
      rcases hp with hp | hp
      · left
        refine lt_of_le_of_ne hp ?_
        intro hr
        apply he
        cases st <;> cases st' <;> simp_all [Stage.rank]
      · exact Or.inr ⟨hp, fun hst => he (by rw [hp, hst])⟩
    · intro hm'
      exact he (by rw [← hs, (h.outs st s hm').1])

/-! ## The equations by parameter and by stage -/

variable {k : Calcs V S W} {H : History V S W}

theorem const_iff (b : Builder) (form : Form) (w : W) :
    ConstHolds bs k H b form ↔
      (∀ p ∈ plans b form .const, PlanEq bs k H .const 0 w k.setup (H.start 0) p) ∧
      (plans b form .const = [] → H.start 0 b.name = k.setup b.name) := by
  rcases form with _ | _ | ⟨_ | _, _ | _ | _⟩ <;> simp [ConstHolds, plans, PlanEq, sees]

theorem before_iff (b : Builder) (form : Form) (t : Nat) (w : W) :
    BeforeHolds bs k H t b form ↔
      (∀ p ∈ plans b form .simple, PlanEq bs k H .simple t w (H.start t) (H.held t) p) ∧
      (∀ p ∈ plans b form .before, PlanEq bs k H .before t (H.ready t) (H.start t) (H.held t) p) ∧
      (plans b form .simple = [] → plans b form .before = [] → H.held t b.name = H.start t b.name) := by
  rcases form with _ | _ | ⟨_ | _, _ | _ | _⟩ <;> simp [BeforeHolds, plans, PlanEq, sees]

theorem after_iff (b : Builder) (form : Form) (t : Nat) :
    AfterHolds bs k H t b form ↔
      (∀ p ∈ plans b form .after, PlanEq bs k H .after t (H.world (t + 1)) (H.held t) (H.start (t + 1)) p) ∧
      (plans b form .after = [] → H.start (t + 1) b.name = H.held t b.name) := by
  rcases form with _ | _ | ⟨_ | _, _ | _ | _⟩ <;> simp [AfterHolds, plans, PlanEq, sees]

theorem plans_exclusive (b : Builder) (form : Form) (h : plans b form .simple ≠ []) :
    plans b form .before = [] := by
  rcases form with _ | _ | ⟨_ | _, _ | _ | _⟩ <;> simp [plans] at h ⊢

/-! ## A built network -/

/-- What is known of a built network. -/
structure Ready (bs : List Builder) (nodeRefs solveRefs : List Ref) (net : Network) : Prop where
  nodup : (bs.map Builder.name).Nodup
  inv : ∃ done, Inv done net.params ∧ done.Perm bs
  nodes : resolveAll net.params.maps (nodeRefs.map fun r => ⟨r, .before⟩) = .ok net.nodeReads
  solve : resolveAll net.params.maps (solveRefs.map fun r => ⟨r, .before⟩) = .ok net.solveReads
  simple : ∀ r ∈ net.nodeReads, r.shape.isSimple = true

theorem ready_of {fuel : Nat} {nodeRefs solveRefs : List Ref} {net : Network} (hw : ∀ b ∈ bs, WellFormed b)
    (hf : bs.length < fuel) (h : buildNetwork fuel bs nodeRefs solveRefs = some net) :
    Ready bs nodeRefs solveRefs net := by
  unfold buildNetwork at h
  rcases build_spec hw hf with ⟨n, h1, -⟩ | ⟨hn, ⟨done, c₁, h1, h2, h3⟩ | ⟨done, rest, c', e, h1, -⟩⟩
  · rw [h1] at h; cases h
  · rw [h1] at h
    simp only at h
    cases h4 : resolveAll c₁.maps (nodeRefs.map fun r => ⟨r, .before⟩) with
    | error e => rw [h4] at h; cases h
    | ok nr =>
      cases h5 : resolveAll c₁.maps (solveRefs.map fun r => ⟨r, .before⟩) with
      | error e => rw [h4, h5] at h; cases h
      | ok sr =>
        rw [h4, h5] at h
        simp only at h
        split at h
        · rename_i hs
          cases h
          exact ⟨hn, ⟨done, h2, h3⟩, h4, h5, fun r hr => List.all_eq_true.1 hs r hr⟩
        · cases h
  · rw [h1] at h; cases h

/-- The values of resolved metrics are what the references mean. -/
theorem Inv.values_iff (h : Inv done c) (hsub : ∀ b ∈ done, b ∈ bs) (hn : (bs.map Builder.name).Nodup)
    {zero : V} {known : Stage → Prop} {st : Stage} {t : Nat} {store : Slot → V}
    (hk : Known c H zero known st t store) {us : List Use} {rs : List Read} (hr : resolveAll c.maps us = .ok rs)
    (hs : ∀ r ∈ rs, ∀ s, r.metric = .slot s → known s.stage) (vs : List V) :
    Given bs H zero st t us vs ↔ vs = valuesOf store rs := by
  obtain ⟨h1, h2⟩ := resolveAll_ok hr
  rw [← h1]
  exact h.given_iff hsub hn H zero st t store vs rs h2 fun r hr s hm p hp hps => hk _ p s (hs r hr s hm) hp hps

/-! ## Histories lead to runs -/

/-- A scene at the start of step `m` is as the history tells. -/
structure Agrees (bs : List Builder) (c : Collection) (H : History V S W) (zero : V) (m : Nat) (x : Scene V S W) :
    Prop where
  world : x.world = H.world m
  inner : ∀ b ∈ bs, x.inner b.name = H.start m b.name
  store : Known c H zero (prior .simple) .simple m x.store

theorem Ready.start_of {nodeRefs solveRefs : List Ref} {net : Network} (hr : Ready bs nodeRefs solveRefs net)
    {w : W} (hw : H.world 0 = w) (hc : ∀ b ∈ bs, ∀ form, Takes bs b form → ConstHolds bs k H b form) :
    ∃ x, startScene k net w = some x ∧ Agrees bs net.params H k.zero 0 x := by
  obtain ⟨done, hi, hp⟩ := hr.inv
  have hsub : ∀ b ∈ done, b ∈ bs := fun b hb => hp.mem_iff.1 hb
  have hall : ∀ b ∈ bs, b ∈ done := fun b hb => hp.mem_iff.2 hb
  have hops := (hi.ops_iff hsub hr.nodup hall .const (PlanEq bs k H .const 0 w k.setup (H.start 0))).2
    fun b hb form hf => ((const_iff b form w).1 (hc b hb form hf)).1
  obtain ⟨x', h1, h2, h3, h4, h5⟩ := hi.stage_of hsub hr.nodup (fun _ => rfl)
    (x := ⟨fun _ => k.zero, k.setup, w⟩) (known_zero net.params H k.zero) (fun _ _ => rfl) hops
  refine ⟨x', h1, ⟨by rw [h3, hw], ?_, h2.start⟩⟩
  intro b hb
  obtain ⟨form, hf, -⟩ := hi.plan_of hsub (hall b hb)
  by_cases hm : b.name ∈ (net.params.ops .const).map Op.name
  · obtain ⟨op, ho, he⟩ := List.mem_map.1 hm
    rw [← he, h4 op ho]
  · rw [h5 _ hm, ((const_iff b form w).1 (hc b hb form hf)).2]
    by_contra hne
    exact hm ((hi.named_iff hsub hr.nodup (hall b hb) hf .const).2 hne)

theorem simple_past {st : Stage} {s : Slot} (h : (Metric.slot s).shape.isSimple = true) (hst : st ≠ .const) :
    past st s.stage := by
  rcases shape_simple h with h | h <;> rw [h] <;> cases st <;> simp [past, Stage.rank] at hst ⊢

theorem past_before (st : Stage) : past .before st := by cases st <;> simp [past, Stage.rank]

theorem past_after (st : Stage) : past .after st := by cases st <;> simp [past, Stage.rank]

theorem Ready.step_of {nodeRefs solveRefs : List Ref} {net : Network} (hr : Ready bs nodeRefs solveRefs net)
    {t : Nat} {x : Scene V S W} (hx : Agrees bs net.params H k.zero t x)
    (hb : ∀ b ∈ bs, ∀ form, Takes bs b form → BeforeHolds bs k H t b form)
    (ha : ∀ b ∈ bs, ∀ form, Takes bs b form → AfterHolds bs k H t b form)
    (hnodes : ∃ vs, Given bs H k.zero .before t (nodeRefs.map fun r => ⟨r, .before⟩) vs ∧
      k.nodes t (H.world t) vs = some (H.ready t))
    (hsolve : ∃ vs, Given bs H k.zero .before t (solveRefs.map fun r => ⟨r, .before⟩) vs ∧
      k.solve t (H.ready t) vs = some (H.world (t + 1))) :
    ∃ x', stepScene k net t x = some x' ∧ Agrees bs net.params H k.zero (t + 1) x' ∧
      Known net.params H k.zero (past .after) .after t x'.store := by
  obtain ⟨done, hi, hp⟩ := hr.inv
  have hn := hr.nodup
  have hsub : ∀ b ∈ done, b ∈ bs := fun b hb => hp.mem_iff.1 hb
  have hall : ∀ b ∈ bs, b ∈ done := fun b hb => hp.mem_iff.2 hb
  have owner : ∀ {st : Stage} {op : Op}, op ∈ net.params.ops st → ∃ b ∈ bs, b.name = op.name := by
    intro st op ho
    obtain ⟨b, hb, he⟩ := List.mem_map.1 (hi.named st op ho)
    exact ⟨b, hsub b hb, he⟩
  -- simple parameters
  have e1 := (hi.ops_iff hsub hn hall .simple (PlanEq bs k H .simple t x.world (H.start t) (H.held t))).2
    fun b hm form hf => ((before_iff b form t x.world).1 (hb b hm form hf)).1
  obtain ⟨x₁, c1, k1, w1, i1, o1⟩ := hi.stage_of hsub hn (by intro h; cases h) hx.store
    (fun op ho => by obtain ⟨b, hm, he⟩ := owner ho; rw [← he]; exact hx.inner b hm) e1
  -- nodes
  obtain ⟨vs, hv, hnd⟩ := hnodes
  have hv' := (hi.values_iff hsub hn (known := fun st => prior .before st) k1.toBefore hr.nodes (by
    intro r hm s hs
    have := hr.simple r hm
    rw [Read.shape, hs] at this
    rcases shape_simple this with h | h <;> rw [h] <;> simp [prior, Stage.rank]) vs).1 hv
  rw [hv', ← hx.world, ← w1] at hnd
  -- before the solver
  have e2 := (hi.ops_iff hsub hn hall .before (PlanEq bs k H .before t (H.ready t) (H.start t) (H.held t))).2
    fun b hm form hf => ((before_iff b form t x.world).1 (hb b hm form hf)).2.1
  obtain ⟨x₂, c2, k2, w2, i2, o2⟩ := hi.stage_of hsub hn (by intro h; cases h)
    (x := { x₁ with world := H.ready t }) k1.toBefore
    (fun op ho => by
      obtain ⟨b, hm, he⟩ := owner ho
      obtain ⟨form, hf, -⟩ := hi.plan_of hsub (hall b hm)
      have hnot : b.name ∉ (net.params.ops .simple).map Op.name := by
        intro hc
        have h1 := (hi.named_iff hsub hn (hall b hm) hf .simple).1 hc
        have h2 := (hi.named_iff hsub hn (hall b hm) hf .before).1 (List.mem_map.2 ⟨op, ho, he.symm⟩)
        exact h2 (plans_exclusive b form h1)
      rw [← he]
      exact (o1 _ hnot).trans (hx.inner b hm)) e2
  have hheld : ∀ b ∈ bs, x₂.inner b.name = H.held t b.name := by
    intro b hm
    obtain ⟨form, hf, -⟩ := hi.plan_of hsub (hall b hm)
    by_cases h2 : b.name ∈ (net.params.ops .before).map Op.name
    · obtain ⟨op, ho, he⟩ := List.mem_map.1 h2
      rw [← he, i2 op ho]
    · rw [o2 _ h2]
      by_cases h1 : b.name ∈ (net.params.ops .simple).map Op.name
      · obtain ⟨op, ho, he⟩ := List.mem_map.1 h1
        rw [← he]; exact i1 op ho
      · refine (o1 _ h1).trans ((hx.inner b hm).trans ?_)
        refine (((before_iff b form t x.world).1 (hb b hm form hf)).2.2 ?_ ?_).symm
        · by_contra hne; exact h1 ((hi.named_iff hsub hn (hall b hm) hf .simple).2 hne)
        · by_contra hne; exact h2 ((hi.named_iff hsub hn (hall b hm) hf .before).2 hne)
  -- the solver
  obtain ⟨us, hu, hsv⟩ := hsolve
  have hu' := (hi.values_iff hsub hn k2 hr.solve (fun _ _ s _ => past_before s.stage) us).1 hu
  rw [hu'] at hsv
  -- after the solver
  have e3 := (hi.ops_iff hsub hn hall .after
    (PlanEq bs k H .after t (H.world (t + 1)) (H.held t) (H.start (t + 1)))).2
    fun b hm form hf => ((after_iff b form t).1 (ha b hm form hf)).1
  obtain ⟨x₃, c3, k3, w3, i3, o3⟩ := hi.stage_of hsub hn (by intro h; cases h)
    (x := { x₂ with world := H.world (t + 1) }) k2.toAfter
    (fun op ho => by obtain ⟨b, hm, he⟩ := owner ho; rw [← he]; exact hheld b hm) e3
  refine ⟨x₃, ?_, ⟨w3, ?_, k3.toNext⟩, k3⟩
  · have hsv' : k.solve t x₂.world (valuesOf x₂.store net.solveReads) = some (H.world (t + 1)) := by
      rw [w2]; exact hsv
    simp only [stepScene, c1, hnd, c2, hsv', c3]
  · intro b hm
    obtain ⟨form, hf, -⟩ := hi.plan_of hsub (hall b hm)
    by_cases h2 : b.name ∈ (net.params.ops .after).map Op.name
    · obtain ⟨op, ho, he⟩ := List.mem_map.1 h2
      rw [← he, i3 op ho]
    · rw [o3 _ h2]
      refine (hheld b hm).trans (((after_iff b form t).1 (ha b hm form hf)).2 ?_).symm
      by_contra hne; exact h2 ((hi.named_iff hsub hn (hall b hm) hf .after).2 hne)

/-- A history that obeys the equations is what the run does. -/
theorem Ready.run_of {nodeRefs solveRefs : List Ref} {net : Network} (hr : Ready bs nodeRefs solveRefs net)
    {w : W} {n : Nat} (ho : Obeys bs nodeRefs solveRefs k w n H) : ∀ m ≤ n,
    ∃ x, runScene k net w m = some x ∧ Agrees bs net.params H k.zero m x ∧
      (∀ t, m = t + 1 → Known net.params H k.zero (past .after) .after t x.store) := by
  intro m
  induction m with
  | zero =>
    intro _
    obtain ⟨x, h1, h2⟩ := hr.start_of (k := k) ho.world ho.const
    exact ⟨x, h1, h2, by intro t ht; cases ht⟩
  | succ m ih =>
    intro hm
    obtain ⟨x, h1, h2, -⟩ := ih (by omega)
    obtain ⟨x', h3, h4, h5⟩ := hr.step_of h2 (ho.before m (by omega)) (ho.after m (by omega)) (ho.nodes m (by omega))
      (ho.solve m (by omega))
    refine ⟨x', by simp only [runScene, h1, h3], h4, ?_⟩
    intro t ht
    cases ht
    exact h5

end Verif.Params
