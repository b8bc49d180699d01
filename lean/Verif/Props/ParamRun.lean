import Verif.Lemmas.ParamRunHist

/-!
# C76: the values of the parameters are those of their definitions

Whatever the order in which parameters are defined, a run gives every parameter the value that its definition asks for,
and adding parameters does not change the others.
-/

namespace Verif.Params

variable {V S W : Type}

/-- In a network that builds, each parameter is calculated in one way. -/
theorem C76_form (bs : List Builder) (fuel : Nat) (nodeRefs solveRefs : List Ref) (net : Network)
    (hw : ∀ b ∈ bs, WellFormed b) (hf : bs.length < fuel) (h : buildNetwork fuel bs nodeRefs solveRefs = some net)
    (b : Builder) (hb : b ∈ bs) : ∃! form, Takes bs b form := by
  have hr := ready_of hw hf h
  obtain ⟨done, hi, hp⟩ := hr.inv
  obtain ⟨form, h1, -⟩ := hi.plan_of (bs := bs) (fun b hb => hp.mem_iff.1 hb) (hp.mem_iff.2 hb)
  exact ⟨form, h1, fun form' h2 => h2.unique hr.nodup h1⟩

/-- A metric is refused exactly when it refers to a parameter that does not give it a value at the end of a step. -/
theorem C76_refused (bs : List Builder) (fuel : Nat) (nodeRefs solveRefs : List Ref) (net : Network)
    (hw : ∀ b ∈ bs, WellFormed b) (hf : bs.length < fuel) (h : buildNetwork fuel bs nodeRefs solveRefs = some net)
    (k : Calcs V S W) (w : W) (refs : List Ref) (n : Nat) :
    report k net w refs n = none ↔
      ∃ r ∈ refs, r.target.isSome ∧ ¬ ∃ sh, Gives bs ⟨r, .after⟩ sh := by
  have hr := ready_of hw hf h
  obtain ⟨done, hi, hp⟩ := hr.inv
  have hall := resolveAll_iff (maps := net.params.maps) (refs.map fun r => ⟨r, .after⟩)
  simp only [hi.resolves_iff hp] at hall
  unfold report
  constructor
  · intro h1
    by_contra hno
    obtain ⟨rs, hrs⟩ := hall.2 (by
      intro u hu ht
      obtain ⟨r, hm, rfl⟩ := List.mem_map.1 hu
      by_contra hg
      exact hno ⟨r, hm, ht, hg⟩)
    rw [hrs] at h1; cases h1
  · rintro ⟨r, hm, ht, hg⟩
    cases hrs : resolveAll net.params.maps (refs.map fun r => ⟨r, .after⟩) with
    | error e => rfl
    | ok rs => exact absurd (hall.1 ⟨rs, hrs⟩ _ (List.mem_map.2 ⟨r, hm, rfl⟩) ht) hg

/-- What a run reports: values `vs` and the state `w'` of the nodes are reported at the end of a run of `n + 1` steps
exactly when there is a history that obeys the definitions of all parameters, of the nodes and of the solver at every
step, and in which the references of the metrics mean `vs`. -/
theorem C76_run (bs : List Builder) (fuel : Nat) (nodeRefs solveRefs : List Ref) (net : Network)
    (hw : ∀ b ∈ bs, WellFormed b) (hf : bs.length < fuel) (h : buildNetwork fuel bs nodeRefs solveRefs = some net)
    (k : Calcs V S W) (w w' : W) (refs : List Ref) (n : Nat) (vs : List V) :
    report k net w refs n = some (some (w', vs)) ↔
      ∃ H : History V S W, Obeys bs nodeRefs solveRefs k w (n + 1) H ∧ H.world (n + 1) = w' ∧
        Given bs H k.zero .after n (refs.map fun r => ⟨r, .after⟩) vs := by
  have hr := ready_of hw hf h
  obtain ⟨done, hi, hp⟩ := hr.inv
  have hsub : ∀ b ∈ done, b ∈ bs := fun b hb => hp.mem_iff.1 hb
  unfold report
  cases hrs : resolveAll net.params.maps (refs.map fun r => ⟨r, .after⟩) with
  | error e =>
    simp only [reduceCtorEq, false_iff]
    rintro ⟨H, -, -, hg⟩
    obtain ⟨u, hu, he⟩ := resolveAll_error hrs
    have hm := (hi.resolves_iff hp u).2 (hg.gives u hu)
    obtain ⟨m, hm⟩ := hm
    rw [hm] at he; cases he
  | ok rs =>
    simp only [Option.some_inj, Option.map_eq_some_iff, Prod.mk.injEq]
    constructor
    · rintro ⟨x, hx, rfl, rfl⟩
      refine ⟨historyOf k net w, hr.run_to hx, by simp [historyOf, hx], ?_⟩
      obtain ⟨y, hy⟩ := runScene_prefix hx n (by omega)
      have hst := hx
      unfold runScene at hst
      rw [hy] at hst
      have hk := (hr.step_to hy (hr.run_known hy) hst).1
      exact (hi.values_iff hsub hr.nodup hk hrs (fun _ _ s _ => past_after s.stage) _).2 rfl
    · rintro ⟨H, ho, rfl, hg⟩
      obtain ⟨x, hx, ha, hk⟩ := hr.run_of ho (n + 1) (le_refl _)
      refine ⟨x, hx, ha.world, ?_⟩
      exact ((hi.values_iff hsub hr.nodup (hk n rfl) hrs (fun _ _ s _ => past_after s.stage) _).1 hg).symm

/-- A run fails exactly when no history obeys the definitions: the calculation of some parameter, or what nodes or the
solver do, ends in an error. -/
theorem C76_fails (bs : List Builder) (fuel : Nat) (nodeRefs solveRefs : List Ref) (net : Network)
    (hw : ∀ b ∈ bs, WellFormed b) (hf : bs.length < fuel) (h : buildNetwork fuel bs nodeRefs solveRefs = some net)
    (k : Calcs V S W) (w : W) (n : Nat) :
    report k net w [] n = some none ↔ ¬ ∃ H : History V S W, Obeys bs nodeRefs solveRefs k w (n + 1) H := by
  have hr := ready_of hw hf h
  constructor
  · rintro hn ⟨H, ho⟩
    have := (C76_run bs fuel nodeRefs solveRefs net hw hf h k w (H.world (n + 1)) [] n []).2
      ⟨H, ho, rfl, by simp [Given]⟩
    rw [hn] at this; cases this
  · intro hno
    have he : report k net w [] n = some ((runScene k net w (n + 1)).map fun x => (x.world, [])) := rfl
    rw [he]
    cases hx : runScene k net w (n + 1) with
    | none => rfl
    | some x => exact absurd ⟨_, hr.run_to hx⟩ hno

/-- The definitions determine everything: two histories that obey them agree on the state of the nodes, on the
internal state of every parameter and on what any metric means. -/
theorem C76_unique (bs : List Builder) (fuel : Nat) (nodeRefs solveRefs : List Ref) (net : Network)
    (hw : ∀ b ∈ bs, WellFormed b) (hf : bs.length < fuel) (h : buildNetwork fuel bs nodeRefs solveRefs = some net)
    (k : Calcs V S W) (w : W) (n : Nat) (H H' : History V S W) (ho : Obeys bs nodeRefs solveRefs k w n H)
    (ho' : Obeys bs nodeRefs solveRefs k w n H') :
    (∀ t ≤ n, H.world t = H'.world t ∧ ∀ b ∈ bs, H.start t b.name = H'.start t b.name) ∧
    (∀ t < n, ∀ (refs : List Ref) (vs : List V), Given bs H k.zero .after t (refs.map fun r => ⟨r, .after⟩) vs ↔
      Given bs H' k.zero .after t (refs.map fun r => ⟨r, .after⟩) vs) := by
  have hr := ready_of hw hf h
  constructor
  · intro t ht
    obtain ⟨x, hx, ha, -⟩ := hr.run_of ho t ht
    obtain ⟨y, hy, hb, -⟩ := hr.run_of ho' t ht
    rw [hx] at hy; cases hy
    exact ⟨ha.world.symm.trans hb.world, fun b hm => (ha.inner b hm).symm.trans (hb.inner b hm)⟩
  · have down : ∀ {G : History V S W}, Obeys bs nodeRefs solveRefs k w n G → ∀ m ≤ n,
        Obeys bs nodeRefs solveRefs k w m G := fun hG m hm =>
      ⟨hG.world, hG.const, fun t ht => hG.before t (by omega), fun t ht => hG.after t (by omega),
        fun t ht => hG.nodes t (by omega), fun t ht => hG.solve t (by omega)⟩
    have half : ∀ {G G' : History V S W}, Obeys bs nodeRefs solveRefs k w n G →
        Obeys bs nodeRefs solveRefs k w n G' → ∀ t < n, ∀ (refs : List Ref) (vs : List V),
        Given bs G k.zero .after t (refs.map fun r => ⟨r, .after⟩) vs →
        Given bs G' k.zero .after t (refs.map fun r => ⟨r, .after⟩) vs := by
      intro G G' hG hG' t ht refs vs hg
      obtain ⟨done, hi, hp⟩ := hr.inv
      have hsub : ∀ b ∈ done, b ∈ bs := fun b hb => hp.mem_iff.1 hb
      have h1 := (C76_run bs fuel nodeRefs solveRefs net hw hf h k w (G.world (t + 1)) refs t vs).2
        ⟨G, down hG _ ht, rfl, hg⟩
      unfold report at h1
      cases hrs : resolveAll net.params.maps (refs.map fun r => ⟨r, .after⟩) with
      | error e => rw [hrs] at h1; cases h1
      | ok rs =>
        rw [hrs] at h1
        simp only [Option.some_inj, Option.map_eq_some_iff, Prod.mk.injEq] at h1
        obtain ⟨x, hx, -, rfl⟩ := h1
        obtain ⟨y, hy, -, hk⟩ := hr.run_of hG' (t + 1) ht
        rw [hx] at hy; cases hy
        exact (hi.values_iff hsub hr.nodup (hk t rfl) hrs (fun _ _ s _ => past_after s.stage) _).2 rfl
    exact fun t ht refs vs => ⟨half ho ho' t ht refs vs, half ho' ho t ht refs vs⟩

/-- Which networks build. -/
theorem C76_builds_iff (bs : List Builder) (fuel : Nat) (nodeRefs solveRefs : List Ref)
    (hw : ∀ b ∈ bs, WellFormed b) (hf : bs.length < fuel) :
    (∃ net, buildNetwork fuel bs nodeRefs solveRefs = some net) ↔
      (∃ c, build fuel bs = some (.ok c)) ∧
      (∀ r ∈ nodeRefs, r = .literal ∨ ∃ sh, Gives bs ⟨r, .before⟩ sh ∧ (sh = .const ∨ sh = .simple)) ∧
      (∀ r ∈ solveRefs, r.target.isSome → ∃ sh, Gives bs ⟨r, .before⟩ sh) := by
  constructor
  · rintro ⟨net, h⟩
    have hr := ready_of hw hf h
    obtain ⟨done, hi, hp⟩ := hr.inv
    have hsub : ∀ b ∈ done, b ∈ bs := fun b hb => hp.mem_iff.1 hb
    refine ⟨?_, ?_, ?_⟩
    · unfold buildNetwork at h
      split at h
      · rename_i c hc; exact ⟨c, hc⟩
      · cases h
    · intro r hm
      obtain ⟨h1, h2⟩ := resolveAll_ok hr.nodes
      have hu : (⟨r, .before⟩ : Use) ∈ net.nodeReads.map Read.use := by
        rw [h1]; exact List.mem_map.2 ⟨r, hm, rfl⟩
      obtain ⟨rd, hrd, he⟩ := List.mem_map.1 hu
      have hs := hr.simple rd hrd
      have hres := h2 rd hrd
      rw [he] at hres
      cases ht : r.target with
      | none =>
        rcases resolve_unaimed ht hres with ⟨h3, -⟩ | ⟨-, h4⟩
        · exact Or.inl h3
        · rw [Read.shape, h4] at hs; cases hs
      | some m =>
        obtain ⟨s, hs'⟩ := resolve_target hres ht
        rw [hs'] at hres
        rw [Read.shape, hs'] at hs
        obtain ⟨p, -, -, -, hg⟩ := hi.leads hsub (u := ⟨r, .before⟩) hres
        refine Or.inr ⟨_, hg, ?_⟩
        rcases shape_simple hs with h | h <;> rw [h] <;> simp [Stage.shape]
    · intro r hm ht
      exact (hi.resolves_iff hp ⟨r, .before⟩).1
        ((resolveAll_iff _).1 ⟨_, hr.solve⟩ _ (List.mem_map.2 ⟨r, hm, rfl⟩)) ht
  · rintro ⟨⟨c, hc⟩, hnodes, hsolve⟩
    rcases build_spec hw hf with ⟨n, h1, -⟩ | ⟨hn, ⟨done, c₁, h1, hi, hp⟩ | ⟨done, rest, c', e, h1, -⟩⟩
    · rw [h1] at hc; cases hc
    · rw [h1] at hc; cases hc
      have hsub : ∀ b ∈ done, b ∈ bs := fun b hb => hp.mem_iff.1 hb
      obtain ⟨nr, hnr⟩ := (resolveAll_iff (maps := c.maps) (nodeRefs.map fun r => ⟨r, .before⟩)).2 (by
        intro u hu
        obtain ⟨r, hm, rfl⟩ := List.mem_map.1 hu
        refine (hi.resolves_iff hp _).2 fun ht => ?_
        rcases hnodes r hm with rfl | ⟨sh, hg, -⟩
        · cases ht
        · exact ⟨sh, hg⟩)
      obtain ⟨sr, hsr⟩ := (resolveAll_iff (maps := c.maps) (solveRefs.map fun r => ⟨r, .before⟩)).2 (by
        intro u hu
        obtain ⟨r, hm, rfl⟩ := List.mem_map.1 hu
        exact (hi.resolves_iff hp _).2 fun ht => hsolve r hm ht)
      refine ⟨⟨c, nr, sr⟩, ?_⟩
      have hall : nr.all (fun r => r.shape.isSimple) = true := by
        rw [List.all_eq_true]
        intro rd hrd
        obtain ⟨h1, h2⟩ := resolveAll_ok hnr
        have hu : rd.use ∈ nodeRefs.map fun r => (⟨r, .before⟩ : Use) := by
          rw [← h1]; exact List.mem_map_of_mem hrd
        obtain ⟨r, hm, he⟩ := List.mem_map.1 hu
        have hres := h2 rd hrd
        rcases hnodes r hm with rfl | ⟨sh, hg, hsh⟩
        · rw [← he] at hres
          have hm' : Metric.literal = rd.metric := Except.ok.inj hres
          simp [Read.shape, ← hm', Metric.shape, Shape.isSimple]
        · rw [← he] at hres
          obtain ⟨m, hm'⟩ := Option.isSome_iff_exists.1 hg.target
          obtain ⟨s, hs'⟩ := resolve_target hres hm'
          rw [hs'] at hres
          obtain ⟨p, -, -, -, hg'⟩ := hi.leads hsub (u := ⟨r, .before⟩) hres
          rw [Read.shape, hs', slot_shape, hg'.unique hn hg]
          rcases hsh with rfl | rfl <;> rfl
      unfold buildNetwork
      simp only [h1, hnr, hsr, hall, if_true]
    · rw [h1] at hc; cases hc

/-- The order in which parameters are defined makes no difference to what a run reports. -/
theorem C76_order (bs bs' : List Builder) (fuel : Nat) (nodeRefs solveRefs : List Ref) (net : Network)
    (hw : ∀ b ∈ bs, WellFormed b) (hf : bs.length < fuel) (hp : bs.Perm bs')
    (h : buildNetwork fuel bs nodeRefs solveRefs = some net) :
    ∃ net', buildNetwork fuel bs' nodeRefs solveRefs = some net' ∧
      ∀ (k : Calcs V S W) (w : W) (refs : List Ref) (n : Nat), report k net w refs n = report k net' w refs n := by
  have hw' : ∀ b ∈ bs', WellFormed b := fun b hb => hw b (hp.mem_iff.2 hb)
  have hf' : bs'.length < fuel := by rw [← hp.length_eq]; exact hf
  obtain ⟨hc, hno, hso⟩ := (C76_builds_iff bs fuel nodeRefs solveRefs hw hf).1 ⟨net, h⟩
  have hc' : ∃ c', build fuel bs' = some (.ok c') := by
    rcases build_spec hw hf with ⟨n, h1, -⟩ | ⟨hn, ⟨done, c₁, h1, h2, h3⟩ | ⟨done, rest, c', e, h1, -⟩⟩
    · obtain ⟨c, hc⟩ := hc; rw [h1] at hc; cases hc
    · have hn' : (bs'.map Builder.name).Nodup := (hp.map Builder.name).nodup_iff.1 hn
      rcases build_spec hw' hf' with ⟨n, -, h4, -⟩ |
        ⟨-, ⟨done', c', h4, h5, h6⟩ | ⟨done', rest, c', e, h4, h5, h6, h7⟩⟩
      · exact absurd hn' h4
      · exact ⟨c', h4⟩
      · exfalso
        obtain ⟨b, hb, h8⟩ := h5.blocked h6 hn' h7
        have hb' : b ∈ bs := hp.mem_iff.2 (h6.mem_iff.1 (List.mem_append_right _ hb))
        obtain ⟨idx, -, h9⟩ := h2.calculable (bs := bs')
          (fun b hb => hp.mem_iff.1 (h3.mem_iff.1 hb)) done [] (by simp) b (h3.mem_iff.2 hb')
        exact h8 _ _ h9
    · obtain ⟨c, hc⟩ := hc; rw [h1] at hc; cases hc
  obtain ⟨net', h'⟩ := (C76_builds_iff bs' fuel nodeRefs solveRefs hw' hf').2 ⟨hc',
    by simpa only [Gives.perm_iff hp] using hno, by simpa only [Gives.perm_iff hp] using hso⟩
  refine ⟨net', h', fun k w refs n => ?_⟩
  have key : ∀ r, report k net w refs n = some (some r) ↔ report k net' w refs n = some (some r) := by
    rintro ⟨w', vs⟩
    rw [C76_run bs fuel nodeRefs solveRefs net hw hf h, C76_run bs' fuel nodeRefs solveRefs net' hw' hf' h']
    constructor
    · rintro ⟨H, h1, h2, h3⟩; exact ⟨H, h1.perm hp, h2, (Given.perm hp).1 h3⟩
    · rintro ⟨H, h1, h2, h3⟩; exact ⟨H, h1.perm hp.symm, h2, (Given.perm hp).2 h3⟩
  have hnone : report k net w refs n = none ↔ report k net' w refs n = none := by
    rw [C76_refused bs fuel nodeRefs solveRefs net hw hf h,
      C76_refused bs' fuel nodeRefs solveRefs net' hw' hf' h']
    simp only [Gives.perm_iff hp]
  match h1 : report k net w refs n, h2 : report k net' w refs n with
  | none, none => rfl
  | some (some r), _ => rw [← h2]; exact ((key r).1 h1).symm
  | some none, some none => rfl
  | _, some (some r) => rw [← h1]; exact (key r).2 h2
  | none, some none => rw [hnone.1 h1] at h2; cases h2
  | some none, none => rw [hnone.2 h2] at h1; cases h1

/-- Adding parameters does not change the others: if a network builds with and without some more parameters, and the
larger one reports something for metrics that the smaller one has too, the smaller one reports the same. -/
theorem C76_extra (bs extra : List Builder) (fuel : Nat) (nodeRefs solveRefs : List Ref) (net net' : Network)
    (hw : ∀ b ∈ bs ++ extra, WellFormed b) (hf : (bs ++ extra).length < fuel)
    (h : buildNetwork fuel bs nodeRefs solveRefs = some net)
    (h' : buildNetwork fuel (bs ++ extra) nodeRefs solveRefs = some net')
    (k : Calcs V S W) (w : W) (refs : List Ref) (n : Nat) (r : W × List V)
    (hrep : report k net' w refs n = some (some r)) (hknown : report k net w refs n ≠ none) :
    report k net w refs n = some (some r) := by
  obtain ⟨w', vs⟩ := r
  have hw₀ : ∀ b ∈ bs, WellFormed b := fun b hb => hw b (List.mem_append_left _ hb)
  have hf₀ : bs.length < fuel := by rw [List.length_append] at hf; omega
  have hr := ready_of hw₀ hf₀ h
  have hr' := ready_of hw hf h'
  have hsub : ∀ b ∈ bs, b ∈ bs ++ extra := fun b hb => List.mem_append_left _ hb
  have given : ∀ {H : History V S W} {st t us vs}, (∀ u ∈ us, u.ref.target.isSome → ∃ sh, Gives bs u sh) →
      Given (bs ++ extra) H k.zero st t us vs → Given bs H k.zero st t us vs := by
    intro H st t us vs hu hg
    unfold Given at hg ⊢
    have hu' : ∀ u ∈ us.filter (fun u => u.ref.target.isSome), ∃ sh, Gives bs u sh := fun u hm =>
      hu u (List.mem_filter.1 hm).1 (List.mem_filter.1 hm).2
    revert hg hu'
    generalize us.filter (fun u => u.ref.target.isSome) = us'
    intro hg hu'
    induction hg with
    | nil => exact .nil
    | cons h1 _ ih =>
      refine .cons ?_ (ih fun u hm => hu' u (List.mem_cons_of_mem _ hm))
      obtain ⟨m, sh, h2, h3, h4⟩ := h1
      obtain ⟨sh', h5⟩ := hu' _ (List.mem_cons_self ..)
      refine ⟨m, sh', h2, h5, ?_⟩
      rw [h4, h3.unique hr'.nodup (h5.perm hsub)]
  have takes : ∀ {b form}, Takes bs b form → Takes (bs ++ extra) b form := by
    rintro b form ⟨sh, h1, h2⟩
    refine ⟨sh, h1.imp ?_, h2⟩
    rintro u s (h3 | h3 | h3)
    · exact Or.inl h3
    · exact Or.inr (Or.inl h3)
    · exact Or.inr (Or.inr (h3.perm hsub))
  have uses : ∀ {b : Builder} {form}, Takes bs b form → ∀ u ∈ b.uses, u.ref.target.isSome → ∃ sh, Gives bs u sh := by
    rintro b form ⟨sh, h1, -⟩ u hu ht
    obtain ⟨i, hi, hget⟩ := List.mem_iff_getElem.1 hu
    have hf := List.forall₂_iff_get.1 h1
    have := hf.2 i hi (by rw [← hf.1]; exact hi)
    simp only [List.get_eq_getElem, hget] at this
    rcases this with ⟨h2, -⟩ | ⟨h2, -⟩ | h2
    · rw [h2] at ht; cases ht
    · rw [h2] at ht; cases ht
    · exact ⟨_, h2⟩
  have hbuilds := (C76_builds_iff bs fuel nodeRefs solveRefs hw₀ hf₀).1 ⟨net, h⟩
  obtain ⟨H, ho, hwd, hg⟩ :=
    (C76_run (bs ++ extra) fuel nodeRefs solveRefs net' hw hf h' k w w' refs n vs).1 hrep
  refine (C76_run bs fuel nodeRefs solveRefs net hw₀ hf₀ h k w w' refs n vs).2 ⟨H, ⟨ho.world, ?_, ?_, ?_, ?_, ?_⟩,
    hwd, ?_⟩
  · intro b hb form hfm
    have := ho.const b (hsub b hb) form (takes hfm)
    unfold ConstHolds at this ⊢
    by_cases hform : form = .const
    · rw [if_pos hform] at this ⊢
      obtain ⟨us, h1, h2⟩ := this
      exact ⟨us, given (uses hfm) h1, h2⟩
    · rw [if_neg hform] at this ⊢
      exact this
  · intro t ht b hb form hfm
    have := ho.before t ht b (hsub b hb) form (takes hfm)
    unfold BeforeHolds at this ⊢
    split at this
    · obtain ⟨us, h1, h2⟩ := this
      exact ⟨us, given (uses hfm) h1, h2⟩
    · obtain ⟨us, h1, h2⟩ := this
      exact ⟨us, given (fun u hu => uses hfm u (List.mem_filter.1 hu).1) h1, h2⟩
    · exact this
  · intro t ht b hb form hfm
    have := ho.after t ht b (hsub b hb) form (takes hfm)
    unfold AfterHolds at this ⊢
    split at this
    · obtain ⟨us, h1, h2⟩ := this
      exact ⟨us, given (fun u hu => uses hfm u (List.mem_filter.1 hu).1) h1, h2⟩
    · obtain ⟨us, h1, h2⟩ := this
      exact ⟨us, given (fun u hu => uses hfm u (List.mem_filter.1 hu).1) h1, h2⟩
    · exact this
  · intro t ht
    obtain ⟨us, h1, h2⟩ := ho.nodes t ht
    refine ⟨us, given ?_ h1, h2⟩
    intro u hu hts
    obtain ⟨r, hm, rfl⟩ := List.mem_map.1 hu
    rcases hbuilds.2.1 r hm with rfl | ⟨sh, h3, -⟩
    · cases hts
    · exact ⟨sh, h3⟩
  · intro t ht
    obtain ⟨us, h1, h2⟩ := ho.solve t ht
    refine ⟨us, given ?_ h1, h2⟩
    intro u hu hts
    obtain ⟨r, hm, rfl⟩ := List.mem_map.1 hu
    exact hbuilds.2.2 r hm hts
  · refine given ?_ hg
    intro u hu hts
    obtain ⟨r, hm, rfl⟩ := List.mem_map.1 hu
    by_contra hno
    exact hknown ((C76_refused bs fuel nodeRefs solveRefs net hw₀ hf₀ h k w refs n).2 ⟨r, hm, hts, hno⟩)

end Verif.Params
