import Verif.Lemmas.ParamRunMain

namespace Verif.Params

variable {V S W : Type} {done bs : List Builder} {c : Collection} {k : Calcs V S W}

/-! ## Runs lead to histories -/

/-- The scene after a stage of a step. -/
def atEnd (k : Calcs V S W) (net : Network) (w : W) (t : Nat) : Stage → Option (Scene V S W)
  | .const => startScene k net w
  | .simple =>
    match runScene k net w t with
    | none => none
    | some x => calcAll k .simple t (net.params.ops .simple) x
  | .before =>
    match runScene k net w t with
    | none => none
    | some x =>
      match calcAll k .simple t (net.params.ops .simple) x with
      | none => none
      | some x₁ =>
        match k.nodes t x₁.world (valuesOf x₁.store net.nodeReads) with
        | none => none
        | some w₁ => calcAll k .before t (net.params.ops .before) { x₁ with world := w₁ }
  | .after => runScene k net w (t + 1)

/-- What a run tells. -/
def historyOf (k : Calcs V S W) (net : Network) (w : W) : History V S W where
  value := fun t st m =>
    match atEnd k net w t st, (opsOf net.params st m).head?.bind Op.out with
    | some x, some s => x.store s
    | _, _ => k.zero
  start := fun t m => ((runScene k net w t).map fun x => x.inner m).getD (k.setup m)
  held := fun t m => ((atEnd k net w t .before).map fun x => x.inner m).getD (k.setup m)
  world := fun t => ((runScene k net w t).map Scene.world).getD w
  ready := fun t => ((atEnd k net w t .before).map Scene.world).getD w

theorem Inv.opsOf_eq (h : Inv done c) {st : Stage} {p : Op} (hp : p ∈ c.ops st) : opsOf c st p.name = [p] := by
  have h1 := h.opsOf_length st p.name
  have h2 : p ∈ opsOf c st p.name := mem_opsOf.2 ⟨hp, rfl⟩
  match he : opsOf c st p.name with
  | [] => rw [he] at h2; cases h2
  | [q] => rw [he, List.mem_singleton] at h2; rw [h2]
  | _ :: _ :: _ => rw [he] at h1; simp at h1

theorem Inv.historyOf_value {net : Network} (h : Inv done net.params) {w : W} {t : Nat} {st : Stage}
    {x : Scene V S W} (hx : atEnd k net w t st = some x) {p : Op} (hp : p ∈ net.params.ops st) {s : Slot}
    (hs : p.out = some s) : x.store s = (historyOf k net w).value t st p.name := by
  simp [historyOf, hx, h.opsOf_eq hp, hs]

/-- The parts of a step. -/
theorem stepScene_parts {net : Network} {t : Nat} {x x₃ : Scene V S W} (h : stepScene k net t x = some x₃) :
    ∃ x₁ w₁ x₂ w₂, calcAll k .simple t (net.params.ops .simple) x = some x₁ ∧
      k.nodes t x₁.world (valuesOf x₁.store net.nodeReads) = some w₁ ∧
      calcAll k .before t (net.params.ops .before) { x₁ with world := w₁ } = some x₂ ∧
      k.solve t x₂.world (valuesOf x₂.store net.solveReads) = some w₂ ∧
      calcAll k .after t (net.params.ops .after) { x₂ with world := w₂ } = some x₃ := by
  unfold stepScene at h
  cases h1 : calcAll k .simple t (net.params.ops .simple) x with
  | none => rw [h1] at h; cases h
  | some x₁ =>
    rw [h1] at h
    simp only at h
    cases h2 : k.nodes t x₁.world (valuesOf x₁.store net.nodeReads) with
    | none => rw [h2] at h; cases h
    | some w₁ =>
      rw [h2] at h
      simp only at h
      cases h3 : calcAll k .before t (net.params.ops .before) { x₁ with world := w₁ } with
      | none => rw [h3] at h; cases h
      | some x₂ =>
        rw [h3] at h
        simp only at h
        cases h4 : k.solve t x₂.world (valuesOf x₂.store net.solveReads) with
        | none => rw [h4] at h; cases h
        | some w₂ =>
          rw [h4] at h
          exact ⟨x₁, w₁, x₂, w₂, rfl, h2, h3, h4, h⟩

theorem runScene_prefix {net : Network} {w : W} : ∀ {n : Nat} {x : Scene V S W}, runScene k net w n = some x →
    ∀ m ≤ n, ∃ y, runScene k net w m = some y := by
  intro n
  induction n with
  | zero => intro x h m hm; obtain rfl := Nat.le_zero.1 hm; exact ⟨x, h⟩
  | succ n ih =>
    intro x h m hm
    rcases Nat.lt_or_ge m (n + 1) with hlt | hge
    · unfold runScene at h
      cases h1 : runScene k net w n with
      | none => rw [h1] at h; cases h
      | some y => exact ih h1 m (by omega)
    · obtain rfl : m = n + 1 := by omega
      exact ⟨x, h⟩

section
variable {nodeRefs solveRefs : List Ref} {net : Network} (hr : Ready bs nodeRefs solveRefs net)
include hr

theorem Ready.start_to {w : W} {x : Scene V S W} (hx : startScene k net w = some x) :
    Known net.params (historyOf k net w) k.zero (past .const) .const 0 x.store ∧
    (∀ b ∈ bs, ∀ form, Takes bs b form → ConstHolds bs k (historyOf k net w) b form) := by
  obtain ⟨done, hi, hp⟩ := hr.inv
  have hn := hr.nodup
  have hsub : ∀ b ∈ done, b ∈ bs := fun b hb => hp.mem_iff.1 hb
  have hall : ∀ b ∈ bs, b ∈ done := fun b hb => hp.mem_iff.2 hb
  have hkeep := ((calcAll_iff k .const 0 _ _ _ (hi.sorted .const)).1 hx).1
  have hk := hi.known_step (fun _ => rfl) (known_zero net.params (historyOf k net w) k.zero) hkeep
    (fun p hp s hs => hi.historyOf_value (t := 0) (by exact hx) hp hs)
  refine ⟨hk, fun b hb form hf => ?_⟩
  have hstart : (historyOf k net w).start 0 = x.inner := by
    funext m
    have : runScene k net w 0 = some x := hx
    simp [historyOf, this]
  rw [const_iff b form w, hstart]
  constructor
  · exact (hi.ops_iff hsub hn hall .const (PlanEq bs k _ .const 0 w k.setup x.inner)).1
      (hi.stage_to hsub hn (fun _ => rfl) hx hk) b hb form hf
  · intro h0
    exact hkeep.inner _ fun hm => (hi.named_iff hsub hn (hall b hb) hf .const).1 hm h0

theorem Ready.step_to {w : W} {t : Nat} {x x₃ : Scene V S W} (hx : runScene k net w t = some x)
    (hk : Known net.params (historyOf k net w) k.zero (prior .simple) .simple t x.store)
    (hs : stepScene k net t x = some x₃) :
    Known net.params (historyOf k net w) k.zero (past .after) .after t x₃.store ∧
    (∀ b ∈ bs, ∀ form, Takes bs b form → BeforeHolds bs k (historyOf k net w) t b form) ∧
    (∀ b ∈ bs, ∀ form, Takes bs b form → AfterHolds bs k (historyOf k net w) t b form) ∧
    (∃ vs, Given bs (historyOf k net w) k.zero .before t (nodeRefs.map fun r => ⟨r, .before⟩) vs ∧
      k.nodes t ((historyOf k net w).world t) vs = some ((historyOf k net w).ready t)) ∧
    (∃ vs, Given bs (historyOf k net w) k.zero .before t (solveRefs.map fun r => ⟨r, .before⟩) vs ∧
      k.solve t ((historyOf k net w).ready t) vs = some ((historyOf k net w).world (t + 1))) := by
  obtain ⟨done, hi, hp⟩ := hr.inv
  have hn := hr.nodup
  have hsub : ∀ b ∈ done, b ∈ bs := fun b hb => hp.mem_iff.1 hb
  have hall : ∀ b ∈ bs, b ∈ done := fun b hb => hp.mem_iff.2 hb
  have hx₃ : runScene k net w (t + 1) = some x₃ := by simp only [runScene, hx, hs]
  obtain ⟨x₁, w₁, x₂, w₂, c1, n1, c2, s1, c3⟩ := stepScene_parts hs
  have a1 : atEnd k net w t .simple = some x₁ := by simp only [atEnd, hx, c1]
  have a2 : atEnd k net w t .before = some x₂ := by simp only [atEnd, hx, c1, n1, c2]
  have q1 := ((calcAll_iff k .simple t _ _ _ (hi.sorted .simple)).1 c1).1
  have q2 := ((calcAll_iff k .before t _ _ _ (hi.sorted .before)).1 c2).1
  have q3 := ((calcAll_iff k .after t _ _ _ (hi.sorted .after)).1 c3).1
  have k1 := hi.known_step (by intro h; cases h) hk q1 (fun p hp s hs => hi.historyOf_value a1 hp hs)
  have k2 := hi.known_step (by intro h; cases h) (x := { x₁ with world := w₁ }) k1.toBefore q2
    (fun p hp s hs => hi.historyOf_value a2 hp hs)
  have k3 := hi.known_step (by intro h; cases h) (x := { x₂ with world := w₂ }) k2.toAfter q3
    (fun p hp s hs => hi.historyOf_value (by exact hx₃) hp hs)
  have hstart : (historyOf k net w).start t = x.inner := by funext m; simp [historyOf, hx]
  have hnext : (historyOf k net w).start (t + 1) = x₃.inner := by funext m; simp [historyOf, hx₃]
  have hheld : (historyOf k net w).held t = x₂.inner := by funext m; simp [historyOf, a2]
  have hworld : (historyOf k net w).world t = x.world := by simp [historyOf, hx]
  have hworld' : (historyOf k net w).world (t + 1) = w₂ := by simp [historyOf, hx₃, q3.world]
  have hready : (historyOf k net w).ready t = w₁ := by simp [historyOf, a2, q2.world]
  -- a parameter calculated in one of the two stages is not calculated in the other
  have excl : ∀ b ∈ bs, ∀ form, Takes bs b form → b.name ∈ (net.params.ops .simple).map Op.name →
      b.name ∉ (net.params.ops .before).map Op.name := by
    intro b hb form hf h1 h2
    exact (hi.named_iff hsub hn (hall b hb) hf .before).1 h2
      (plans_exclusive b form ((hi.named_iff hsub hn (hall b hb) hf .simple).1 h1))
  have owner : ∀ {st : Stage} {op : Op}, op ∈ net.params.ops st → ∃ b ∈ bs, b.name = op.name := by
    intro st op ho
    obtain ⟨b, hb, he⟩ := List.mem_map.1 (hi.named st op ho)
    exact ⟨b, hsub b hb, he⟩
  refine ⟨k3, ?_, ?_, ?_, ?_⟩
  · intro b hb form hf
    rw [before_iff b form t x.world, hstart, hheld, hready]
    refine ⟨?_, ?_, ?_⟩
    · refine (hi.ops_iff hsub hn hall .simple (PlanEq bs k _ .simple t x.world x.inner x₂.inner)).1 ?_ b hb form hf
      intro op ho
      have h1 := hi.stage_to hsub hn (by intro h; cases h) c1 k1 op ho
      obtain ⟨b', hb', he⟩ := owner ho
      obtain ⟨form', hf', -⟩ := hi.plan_of hsub (hall b' hb')
      have h2 : x₂.inner op.name = x₁.inner op.name := by
        rw [← he]
        exact q2.inner _ (excl b' hb' form' hf' (List.mem_map.2 ⟨op, ho, he.symm⟩))
      unfold PlanEq Op.plan at h1 ⊢
      simp only at h1 ⊢
      rw [h2]; exact h1
    · refine (hi.ops_iff hsub hn hall .before (PlanEq bs k _ .before t w₁ x.inner x₂.inner)).1 ?_ b hb form hf
      intro op ho
      have h1 := hi.stage_to hsub hn (by intro h; cases h) c2 k2 op ho
      obtain ⟨b', hb', he⟩ := owner ho
      obtain ⟨form', hf', -⟩ := hi.plan_of hsub (hall b' hb')
      have h2 : x₁.inner op.name = x.inner op.name := by
        rw [← he]
        exact q1.inner _ fun hc => excl b' hb' form' hf' hc (List.mem_map.2 ⟨op, ho, he.symm⟩)
      unfold PlanEq Op.plan at h1 ⊢
      simp only at h1 ⊢
      rw [h2] at h1; exact h1
    · intro h1 h2
      have h3 := q2.inner b.name fun hm => (hi.named_iff hsub hn (hall b hb) hf .before).1 hm h2
      exact h3.trans (q1.inner b.name fun hm => (hi.named_iff hsub hn (hall b hb) hf .simple).1 hm h1)
  · intro b hb form hf
    rw [after_iff b form t, hheld, hnext, hworld']
    constructor
    · exact (hi.ops_iff hsub hn hall .after (PlanEq bs k _ .after t w₂ x₂.inner x₃.inner)).1
        (hi.stage_to hsub hn (by intro h; cases h) c3 k3) b hb form hf
    · intro h0
      exact q3.inner b.name fun hm => (hi.named_iff hsub hn (hall b hb) hf .after).1 hm h0
  · refine ⟨valuesOf x₁.store net.nodeReads, ?_, ?_⟩
    · refine (hi.values_iff hsub hn (known := fun st => prior .before st) k1.toBefore hr.nodes ?_ _).2 rfl
      intro r hm s hs
      have := hr.simple r hm
      rw [Read.shape, hs] at this
      rcases shape_simple this with h | h <;> rw [h] <;> simp [prior, Stage.rank]
    · rw [hworld, hready, ← n1, q1.world]
  · refine ⟨valuesOf x₂.store net.solveReads, ?_, ?_⟩
    · exact (hi.values_iff hsub hn k2 hr.solve (fun _ _ s _ => past_before s.stage) _).2 rfl
    · rw [hready, hworld', ← s1, q2.world]

theorem Ready.run_known {w : W} : ∀ {n : Nat} {x : Scene V S W}, runScene k net w n = some x →
    Known net.params (historyOf k net w) k.zero (prior .simple) .simple n x.store := by
  intro n
  induction n with
  | zero => intro x h; exact (hr.start_to h).1.start
  | succ n ih =>
    intro x h
    have h' := h
    unfold runScene at h'
    cases h1 : runScene k net w n with
    | none => rw [h1] at h'; cases h'
    | some y =>
      rw [h1] at h'
      exact (hr.step_to h1 (ih h1) h').1.toNext

/-- A run obeys the equations. -/
theorem Ready.run_to {w : W} {n : Nat} {x : Scene V S W} (h : runScene k net w n = some x) :
    Obeys bs nodeRefs solveRefs k w n (historyOf k net w) := by
  have hstep : ∀ t < n, ∃ y z, runScene k net w t = some y ∧ stepScene k net t y = some z := by
    intro t ht
    obtain ⟨y, hy⟩ := runScene_prefix h t (by omega)
    obtain ⟨z, hz⟩ := runScene_prefix h (t + 1) (by omega)
    unfold runScene at hz
    rw [hy] at hz
    exact ⟨y, z, hy, hz⟩
  obtain ⟨x₀, h0⟩ := runScene_prefix h 0 (by omega)
  have hc := hr.start_to h0
  obtain ⟨done, hi, -⟩ := hr.inv
  refine ⟨?_, hc.2, ?_, ?_, ?_, ?_⟩
  · have := ((calcAll_iff k .const 0 _ _ _ (hi.sorted .const)).1 h0).1.world
    simp [historyOf, h0, this]
  all_goals
    intro t ht
    obtain ⟨y, z, hy, hz⟩ := hstep t ht
    have := hr.step_to hy (hr.run_known hy) hz
    first | exact this.2.1 | exact this.2.2.1 | exact this.2.2.2.1 | exact this.2.2.2.2

end

/-! ## References and the order of definitions -/

/-- A reference resolves exactly when it is given something. -/
theorem Inv.resolves_iff (h : Inv done c) (hp : done.Perm bs) (u : Use) :
    (∃ m, resolve c.maps u.phase u.ref = .ok m) ↔ (u.ref.target.isSome → ∃ sh, Gives bs u sh) := by
  have hsub : ∀ b ∈ done, b ∈ bs := fun b hb => hp.mem_iff.1 hb
  constructor
  · rintro ⟨m, hm⟩ ht
    obtain ⟨n, hn⟩ := Option.isSome_iff_exists.1 ht
    obtain ⟨s, rfl⟩ := resolve_target hm hn
    obtain ⟨p, -, -, -, hg⟩ := h.leads hsub hm
    exact ⟨_, hg⟩
  · intro hg
    cases ht : u.ref.target with
    | none =>
      cases hu : u.ref with
      | literal => exact ⟨_, rfl⟩
      | component => exact ⟨_, rfl⟩
      | value n w => rw [hu] at ht; cases ht
      | valueMulti n w => rw [hu] at ht; cases ht
      | index n w => rw [hu] at ht; cases ht
      | indexMulti n w => rw [hu] at ht; cases ht
    | some n =>
      obtain ⟨sh, b, hb, h1, h2, kd, h3, h4⟩ := hg (by rw [ht]; rfl)
      obtain ⟨idx, h5, h6⟩ := h.calculable hsub done [] (by simp) b (hp.mem_iff.2 hb)
      have hn : (c.maps.map Prod.fst).Nodup := by rw [h.names]; exact h.nodup
      have hn' : (bs.map Builder.name).Nodup := (hp.map Builder.name).nodup_iff.1 h.nodup
      rw [(h3.unique hn' h6).2] at h4
      obtain ⟨m, h7, -⟩ := (resolve_offers hn h1 h2 h5 (p := u.phase)).1 sh h4
      exact ⟨m, h7⟩

theorem resolveAll_iff {maps : Maps} (us : List Use) :
    (∃ rs, resolveAll maps us = .ok rs) ↔ ∀ u ∈ us, ∃ m, resolve maps u.phase u.ref = .ok m := by
  constructor
  · rintro ⟨rs, h⟩ u hu
    obtain ⟨h1, h2⟩ := resolveAll_ok h
    rw [← h1] at hu
    obtain ⟨r, hr, rfl⟩ := List.mem_map.1 hu
    exact ⟨_, h2 r hr⟩
  · intro h
    cases hr : resolveAll maps us with
    | ok rs => exact ⟨rs, rfl⟩
    | error e =>
      obtain ⟨u, hu, h1⟩ := resolveAll_error hr
      obtain ⟨m, h2⟩ := h u hu
      rw [h1] at h2; cases h2

theorem Calculable.perm {bs' : List Builder} (h : ∀ b ∈ bs, b ∈ bs') {n : Name} {t : Ty} {kd : Kind}
    (hc : Calculable bs n t kd) : Calculable bs' n t kd := by
  induction hc with
  | intro b mem ty kind shape usable refs offers accepts ih =>
    exact .intro b (h b mem) ty kind shape usable ih offers accepts

theorem Gives.perm {bs' : List Builder} (h : ∀ b ∈ bs, b ∈ bs') {u : Use} {sh : Shape} (hg : Gives bs u sh) :
    Gives bs' u sh := by
  obtain ⟨b, hb, h1, h2, kd, h3, h4⟩ := hg
  exact ⟨b, h b hb, h1, h2, kd, h3.perm h, h4⟩

theorem Gives.perm_iff {bs' : List Builder} (hp : bs.Perm bs') {u : Use} {sh : Shape} :
    Gives bs u sh ↔ Gives bs' u sh :=
  ⟨Gives.perm fun _ => hp.mem_iff.1, Gives.perm fun _ => hp.mem_iff.2⟩

theorem Given.perm {bs' : List Builder} (hp : bs.Perm bs') {H : History V S W} {zero : V} {st : Stage} {t : Nat}
    {us : List Use} {vs : List V} : Given bs H zero st t us vs ↔ Given bs' H zero st t us vs := by
  unfold Given
  have : Means bs H zero st t = Means bs' H zero st t := by
    funext u v
    simp only [Means, Gives.perm_iff hp]
  rw [this]

theorem Takes.perm {bs' : List Builder} (hp : bs.Perm bs') {b : Builder} {form : Form} :
    Takes bs b form ↔ Takes bs' b form := by
  simp only [Takes, Gives.perm_iff hp]

theorem Given.gives {H : History V S W} {zero : V} {st : Stage} {t : Nat} {us : List Use} {vs : List V}
    (h : Given bs H zero st t us vs) : ∀ u ∈ us, u.ref.target.isSome → ∃ sh, Gives bs u sh := by
  intro u hu ht
  have hm : u ∈ us.filter fun u => u.ref.target.isSome := List.mem_filter.2 ⟨hu, ht⟩
  obtain ⟨i, hi, hget⟩ := List.mem_iff_getElem.1 hm
  unfold Given at h
  have hf := List.forall₂_iff_get.1 h
  have := hf.2 i hi (by rw [← hf.1]; exact hi)
  simp only [List.get_eq_getElem, hget] at this
  obtain ⟨m, sh, -, h2, -⟩ := this
  exact ⟨sh, h2⟩

/-- The equations do not depend on the order of definition. -/
theorem Obeys.perm {bs' : List Builder} (hp : bs.Perm bs') {nodeRefs solveRefs : List Ref} {w : W} {n : Nat}
    {H : History V S W} (h : Obeys bs nodeRefs solveRefs k w n H) : Obeys bs' nodeRefs solveRefs k w n H := by
  refine ⟨h.world, ?_, ?_, ?_, ?_, ?_⟩
  · intro b hb form hf
    have := h.const b (hp.mem_iff.2 hb) form ((Takes.perm hp).2 hf)
    unfold ConstHolds at this ⊢
    simpa only [Given.perm hp] using this
  · intro t ht b hb form hf
    have := h.before t ht b (hp.mem_iff.2 hb) form ((Takes.perm hp).2 hf)
    unfold BeforeHolds at this ⊢
    simpa only [Given.perm hp] using this
  · intro t ht b hb form hf
    have := h.after t ht b (hp.mem_iff.2 hb) form ((Takes.perm hp).2 hf)
    unfold AfterHolds at this ⊢
    simpa only [Given.perm hp] using this
  · intro t ht
    simpa only [Given.perm hp] using h.nodes t ht
  · intro t ht
    simpa only [Given.perm hp] using h.solve t ht

end Verif.Params
