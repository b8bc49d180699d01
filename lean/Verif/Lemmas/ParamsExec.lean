import Verif.Lemmas.ParamsLoop

namespace Verif.Params

theorem execAll_ops (st : Stage) (t : Nat) : ∀ (ops : List Op) (σ : Store),
    (execAll st t ops σ).2.map Observation.op = ops := by
  intro ops
  induction ops with
  | nil => intro σ; rfl
  | cons op ops ih => intro σ; simp only [execAll, List.map_cons, ih]; rfl

theorem execAll_obs (st : Stage) (t : Nat) : ∀ (ops : List Op) (σ : Store) (o : Observation),
    o ∈ (execAll st t ops σ).2 → ∃ pre op post, ops = pre ++ op :: post ∧
      o = (exec st t op (execAll st t pre σ).1).2 := by
  intro ops
  induction ops with
  | nil => intro σ o h; cases h
  | cons op ops ih =>
    intro σ o h
    simp only [execAll] at h
    rcases List.mem_cons.1 h with rfl | h
    · exact ⟨[], op, ops, rfl, rfl⟩
    · obtain ⟨pre, op', post, h1, h2⟩ := ih _ o h
      exact ⟨op :: pre, op', post, by rw [h1]; rfl, by rw [h2]; rfl⟩

theorem execAll_other (st : Stage) (t : Nat) : ∀ (ops : List Op) (σ : Store) (s : Slot),
    s ∉ outs ops → (execAll st t ops σ).1 s = σ s := by
  intro ops
  induction ops with
  | nil => intro σ s _; rfl
  | cons op ops ih =>
    intro σ s h
    simp only [execAll]
    have h1 : op.out ≠ some s := by
      intro he; exact h (by simp [outs, he])
    have h2 : s ∉ outs ops := by
      intro hm; apply h
      simp only [outs, List.mem_filterMap] at hm ⊢
      obtain ⟨p, hp, he⟩ := hm
      exact ⟨p, List.mem_cons_of_mem _ hp, he⟩
    rw [ih _ _ h2]
    unfold exec write
    cases ho : op.out with
    | none => rfl
    | some s' =>
      have : s ≠ s' := by rintro rfl; exact h1 ho
      simp [this]

theorem execAll_written (st : Stage) (t : Nat) : ∀ (ops : List Op) (σ : Store) (s : Slot) (p : Op),
    (outs ops).Nodup → p ∈ ops → p.out = some s →
    (execAll st t ops σ).1 s = some ⟨p.name, st, t⟩ := by
  intro ops
  induction ops with
  | nil => intro σ s p _ h; cases h
  | cons op ops ih =>
    intro σ s p hn hp ho
    simp only [execAll]
    have hsub : (outs ops).Nodup := by
      refine List.Nodup.sublist ?_ hn
      exact (List.sublist_cons_self op ops).filterMap _
    rcases List.mem_cons.1 hp with rfl | hp
    · rw [execAll_other]
      · simp [exec, write, ho]
      · have : outs (p :: ops) = s :: outs ops := by simp [outs, ho]
        rw [this, List.nodup_cons] at hn
        exact hn.1
    · exact ih _ s p hsub hp ho

variable {done : List Builder} {c : Collection}

theorem Inv.other (h : Inv done c) {st : Stage} {s : Slot} (hs : s.stage ≠ st) (t : Nat) (σ : Store)
    {pre post : List Op} (he : c.ops st = pre ++ post) : (execAll st t pre σ).1 s = σ s := by
  refine execAll_other st t pre σ s ?_
  intro hm
  refine hs (h.outs st s ?_).1
  rw [he]
  simp only [Verif.Params.outs, List.filterMap_append, List.mem_append] at hm ⊢
  exact Or.inl hm

theorem Inv.other' (h : Inv done c) {st : Stage} {s : Slot} (hs : s.stage ≠ st) (t : Nat) (σ : Store) :
    (execAll st t (c.ops st) σ).1 s = σ s :=
  h.other hs t σ (post := []) (by simp)

theorem Inv.written (h : Inv done c) {st : Stage} {s : Slot} {p : Op} (t : Nat) (σ : Store)
    {pre post : List Op} (he : c.ops st = pre ++ post) (hp : p ∈ pre) (ho : p.out = some s) :
    (execAll st t pre σ).1 s = some ⟨p.name, st, t⟩ := by
  refine execAll_written st t pre σ s p ?_ hp ho
  have := h.outsNodup st
  rw [he] at this
  exact List.Nodup.sublist ((List.sublist_append_left pre post).filterMap _) this

theorem Inv.written' (h : Inv done c) {st : Stage} {s : Slot} {p : Op} (t : Nat) (σ : Store)
    (hp : p ∈ c.ops st) (ho : p.out = some s) :
    (execAll st t (c.ops st) σ).1 s = some ⟨p.name, st, t⟩ :=
  h.written t σ (post := []) (by simp) hp ho

theorem Inv.outStage (h : Inv done c) {st : Stage} {s : Slot} {p : Op} (hp : p ∈ c.ops st)
    (ho : p.out = some s) : s.stage = st :=
  (h.outs st s (List.mem_filterMap.2 ⟨p, hp, ho⟩)).1

/-- What the store holds between steps. -/
theorem Inv.store (h : Inv done c) (n : Nat) {s : Slot} {p : Op} (ho : p.out = some s) :
    (p ∈ c.ops .const → (run c n).1 s = some ⟨p.name, .const, 0⟩) ∧
    (p ∈ c.ops .after → (run c n).1 s = match n with | 0 => none | k + 1 => some ⟨p.name, .after, k⟩) := by
  induction n with
  | zero =>
    constructor
    · intro hp; exact h.written' 0 _ hp ho
    · intro hp
      have hs := h.outStage hp ho
      exact h.other' (by rw [hs]; simp) 0 _
  | succ n ih =>
    constructor
    · intro hp
      have hs := h.outStage hp ho
      show (execAll .after n (c.ops .after) (execAll .before n (c.ops .before)
        (execAll .simple n (c.ops .simple) (run c n).1).1).1).1 s = _
      rw [h.other' (by rw [hs]; simp), h.other' (by rw [hs]; simp), h.other' (by rw [hs]; simp)]
      exact ih.1 hp
    · intro hp
      show (execAll .after n (c.ops .after) (execAll .before n (c.ops .before)
        (execAll .simple n (c.ops .simple) (run c n).1).1).1).1 s = _
      exact h.written' n _ hp ho

/-- The store seen by an operation, at each place its writer may be. -/
theorem Inv.seen (h : Inv done c) (n : Nat) {o : Observation} (ho : o ∈ (run c n).2) :
    ∃ pre post σ, c.ops o.stage = pre ++ o.op :: post ∧
      o.seen = o.op.reads.filterMap (observe σ) ∧
      ∀ (r : Read) (s : Slot) (p : Op), p.out = some s → Earlier c o.stage pre r s p →
        (s.stage ≠ .after ∧ (σ s = some ⟨p.name, .const, 0⟩ ∨ σ s = some ⟨p.name, .simple, o.step⟩ ∨
          σ s = some ⟨p.name, .before, o.step⟩)) ∨
        (s.stage = .after ∧ o.stage = .after ∧ σ s = some ⟨p.name, .after, o.step⟩) ∨
        (s.stage = .after ∧ o.stage = .before ∧ r.use.ref.want = some .afterOrInitial ∧
          σ s = match o.step with | 0 => none | k + 1 => some ⟨p.name, .after, k⟩) := by
  induction n with
  | zero =>
    obtain ⟨pre, op, post, h1, rfl⟩ := execAll_obs .const 0 _ _ o ho
    refine ⟨pre, post, _, h1, rfl, ?_⟩
    intro r s p hp he
    rcases he with ⟨he, -⟩ | ⟨he, hm⟩ | ⟨he, -⟩
    · simp [exec, Stage.rank] at he
    · have he : s.stage = .const := he
      refine Or.inl ⟨by rw [he]; simp, Or.inl ?_⟩
      exact h.written 0 _ h1 hm hp
    · cases he
  | succ n ih =>
    have : (run c (n + 1)).2 = (run c n).2 ++ (stepParams c n (run c n).1).2 := rfl
    rw [this, List.mem_append] at ho
    rcases ho with ho | ho
    · exact ih ho
    clear ih
    have hstore := fun {s : Slot} {p : Op} (ho : p.out = some s) => h.store n ho
    generalize hσ : (run c n).1 = σ₀ at *
    have hsplit : (stepParams c n σ₀).2 = (execAll .simple n (c.ops .simple) σ₀).2 ++
        (execAll .before n (c.ops .before) (execAll .simple n (c.ops .simple) σ₀).1).2 ++
        (execAll .after n (c.ops .after) (execAll .before n (c.ops .before)
          (execAll .simple n (c.ops .simple) σ₀).1).1).2 := rfl
    rw [hsplit, List.mem_append, List.mem_append] at ho
    rcases ho with (ho | ho) | ho
    · obtain ⟨pre, op, post, h1, rfl⟩ := execAll_obs _ _ _ _ o ho
      refine ⟨pre, post, _, h1, rfl, ?_⟩
      intro r s p hp he
      rcases he with ⟨he, hm⟩ | ⟨he, hm⟩ | ⟨he, -⟩
      · have hc : s.stage = .const := by
          cases hs : s.stage <;> rw [hs] at he <;> simp [exec, Stage.rank] at he ⊢
        rw [hc] at hm
        refine Or.inl ⟨by rw [hc]; simp, Or.inl ?_⟩
        rw [h.other (by rw [hc]; simp) n σ₀ h1]
        exact (hstore hp).1 hm
      · have he : s.stage = .simple := he
        refine Or.inl ⟨by rw [he]; simp, Or.inr (Or.inl ?_)⟩
        exact h.written n _ h1 hm hp
      · cases he
    · obtain ⟨pre, op, post, h1, rfl⟩ := execAll_obs _ _ _ _ o ho
      refine ⟨pre, post, _, h1, rfl, ?_⟩
      intro r s p hp he
      rcases he with ⟨he, hm⟩ | ⟨he, hm⟩ | ⟨-, he, hw, hm⟩
      · have hc : s.stage = .const ∨ s.stage = .simple := by
          cases hs : s.stage <;> rw [hs] at he <;> simp [exec, Stage.rank] at he ⊢
        rcases hc with hc | hc
        · rw [hc] at hm
          refine Or.inl ⟨by rw [hc]; simp, Or.inl ?_⟩
          rw [h.other (by rw [hc]; simp) n _ h1, h.other' (by rw [hc]; simp)]
          exact (hstore hp).1 hm
        · rw [hc] at hm
          refine Or.inl ⟨by rw [hc]; simp, Or.inr (Or.inl ?_)⟩
          rw [h.other (by rw [hc]; simp) n _ h1]
          exact h.written' n _ hm hp
      · have he : s.stage = .before := he
        refine Or.inl ⟨by rw [he]; simp, Or.inr (Or.inr ?_)⟩
        exact h.written n _ h1 hm hp
      · refine Or.inr (Or.inr ⟨he, rfl, hw, ?_⟩)
        rw [h.other (by rw [he]; simp) n _ h1, h.other' (by rw [he]; simp)]
        exact (hstore hp).2 hm
    · obtain ⟨pre, op, post, h1, rfl⟩ := execAll_obs _ _ _ _ o ho
      refine ⟨pre, post, _, h1, rfl, ?_⟩
      intro r s p hp he
      rcases he with ⟨he, hm⟩ | ⟨he, hm⟩ | ⟨he, -⟩
      · have hne : s.stage ≠ .after := by
          intro hs; rw [hs] at he; simp [exec, Stage.rank] at he
        refine Or.inl ⟨hne, ?_⟩
        rw [h.other hne n _ h1]
        cases hc : s.stage with
        | const =>
          rw [hc] at hm
          refine Or.inl ?_
          rw [h.other' (by rw [hc]; simp), h.other' (by rw [hc]; simp)]
          exact (hstore hp).1 hm
        | simple =>
          rw [hc] at hm
          refine Or.inr (Or.inl ?_)
          rw [h.other' (by rw [hc]; simp)]
          exact h.written' n _ hm hp
        | before =>
          rw [hc] at hm
          exact Or.inr (Or.inr (h.written' n _ hm hp))
        | after => exact absurd hc hne
      · have he : s.stage = .after := he
        exact Or.inr (Or.inl ⟨he, rfl, h.written n _ h1 hm hp⟩)
      · cases he

/-- Splitting a concatenation at one of its elements. -/
theorem append_split {α : Type} {A B pre post : List α} {x : α} (h : A ++ B = pre ++ x :: post) :
    (∃ post', A = pre ++ x :: post') ∨ (∃ pre', pre = A ++ pre' ∧ B = pre' ++ x :: post) := by
  rcases List.append_eq_append_iff.1 h with ⟨l, h1, h2⟩ | ⟨l, h1, h2⟩
  · exact Or.inr ⟨l, h1, h2⟩
  · cases l with
    | nil => exact Or.inr ⟨[], by simpa using h1.symm, by simpa using h2.symm⟩
    | cons a l =>
      cases h2
      exact Or.inl ⟨l, h1⟩

/-- Each place in the whole sequence is a place in one of the schedules. -/
theorem sequence_split {c : Collection} {pre post : List Op} {op : Op}
    (h : sequence c = pre ++ op :: post) : ∃ st pre' post', c.ops st = pre' ++ op :: post' ∧
      (∀ p ∈ pre', p ∈ pre) ∧ (∀ st', st'.rank < st.rank → ∀ p ∈ c.ops st', p ∈ pre) := by
  unfold sequence at h
  rcases append_split h with ⟨post', h⟩ | ⟨pre', rfl, hb⟩
  · rcases append_split h with ⟨post', h⟩ | ⟨pre', rfl, hb⟩
    · rcases append_split h with ⟨post', h⟩ | ⟨pre', rfl, hb⟩
      · refine ⟨.const, pre, post', h, fun _ h => h, ?_⟩
        intro st' hr; cases st' <;> simp [Stage.rank] at hr
      · refine ⟨.simple, pre', _, hb, fun _ h => List.mem_append_right _ h, ?_⟩
        intro st' hr p hp; cases st' <;> simp [Stage.rank] at hr
        exact List.mem_append_left _ hp
    · refine ⟨.before, pre', _, hb, fun _ h => List.mem_append_right _ h, ?_⟩
      intro st' hr p hp; cases st' <;> simp [Stage.rank] at hr <;> simp [hp]
  · refine ⟨.after, pre', _, hb, fun _ h => List.mem_append_right _ h, ?_⟩
    intro st' hr p hp; cases st' <;> simp [Stage.rank] at hr <;> simp [hp]

/-! ## The graph of a successful build, and the order of definition -/

theorem Inv.idxOf_lt (h : Inv done c) {bs : List Builder} (hp : done.Perm bs) {n m : Name}
    (hr : Refers bs n m) :
    (done.map Builder.name).idxOf m < (done.map Builder.name).idxOf n := by
  obtain ⟨b, hb, rfl, u, hu, ht⟩ := hr
  obtain ⟨pre, post, he⟩ := List.append_of_mem (hp.mem_iff.2 hb)
  obtain ⟨b', hb', h1, -⟩ := h.dep pre b post he u hu (by rw [ht]; simp)
  rw [ht, Option.some_inj] at h1
  subst h1
  have hn := h.nodup
  rw [he, List.map_append, List.map_cons] at hn ⊢
  have hm : b'.name ∈ pre.map Builder.name := List.mem_map_of_mem hb'
  have hnot : b.name ∉ pre.map Builder.name := by
    intro hmem
    rw [List.nodup_append] at hn
    exact hn.2.2 _ hmem _ (by simp) rfl
  rw [List.idxOf_append_of_mem hm, List.idxOf_append_of_notMem hnot]
  have := List.idxOf_lt_length_iff.2 hm
  omega

theorem slots_ty {t : Ty} {idx : Index} {s : Slot} (h : s ∈ idx.slots t) : s.ty = t := by
  cases idx with
  | const i => simp only [Index.slots, List.mem_singleton] at h; rw [h]
  | simple i => simp only [Index.slots, List.mem_singleton] at h; rw [h]
  | general b a => cases b <;> cases a <;> simp [Index.slots] at h <;> grind

theorem shape_stage {s s' : Slot} (h : (Metric.slot s).shape = (Metric.slot s').shape) :
    s.stage = s'.stage := by
  obtain ⟨st, t, i⟩ := s
  obtain ⟨st', t', i'⟩ := s'
  cases st <;> cases st' <;> simp [Metric.shape] at h ⊢

theorem resolve_anon {maps maps' : Maps} (hn : (maps.map Prod.fst).Nodup)
    (hn' : (maps'.map Prod.fst).Nodup) {p : Phase} {r : Ref}
    (hk : ∀ t n, (lookup maps t n).map Index.kind = (lookup maps' t n).map Index.kind)
    {m m' : Metric} (h : resolve maps p r = .ok m) (h' : resolve maps' p r = .ok m') :
    m.anon = m'.anon := by
  cases ht : r.target with
  | none =>
    obtain ⟨m₀, h1, -, h2⟩ := resolve_plain (maps := maps) (p := p) ht .const
    rw [h1] at h; cases h
    rw [h2] at h'; cases h'
    rfl
  | some n =>
    obtain ⟨s, rfl⟩ := resolve_target h ht
    obtain ⟨s', rfl⟩ := resolve_target h' ht
    obtain ⟨n₁, t, idx, h1, h2, h3, h4⟩ := (resolve_slot h).reg
    obtain ⟨n₂, t', idx', h1', h2', h3', h4'⟩ := (resolve_slot h').reg
    rw [ht] at h1 h1'
    cases h1; cases h1'
    have hk1 := hk t n
    rw [h3, Option.map_some] at hk1
    cases hl : lookup maps' t n with
    | none => rw [hl] at hk1; cases hk1
    | some i =>
      rw [hl, Option.map_some, Option.some_inj] at hk1
      have he := List.inj_on_of_nodup_map hn' (lookup_mem hl) (lookup_mem h3') rfl
      cases he
      have hty : s.ty = s'.ty := by rw [slots_ty h4, slots_ty h4']
      have hsh : (Metric.slot s).shape = (Metric.slot s').shape := by
        cases ho : Offers p r idx.kind with
        | none =>
          obtain ⟨w, -, he⟩ := (resolve_offers hn ht h2 h3 (p := p)).2 ho
          rw [he] at h; cases h
        | some sh =>
          obtain ⟨m, h5, h6⟩ := (resolve_offers hn ht h2 h3 (p := p)).1 sh ho
          rw [h5] at h; cases h
          rw [hk1] at ho
          obtain ⟨m, h5', h6'⟩ := (resolve_offers hn' ht h2' h3' (p := p)).1 sh ho
          rw [h5'] at h'; cases h'
          rw [h6, h6']
      have hst := shape_stage hsh
      obtain ⟨st, ty, i⟩ := s
      obtain ⟨st', ty', i'⟩ := s'
      cases hty; cases hst
      rfl

theorem reads_anon {maps maps' : Maps} (hn : (maps.map Prod.fst).Nodup)
    (hn' : (maps'.map Prod.fst).Nodup)
    (hk : ∀ t n, (lookup maps t n).map Index.kind = (lookup maps' t n).map Index.kind) :
    ∀ {us : List Use} {rs rs' : List Read}, resolveAll maps us = .ok rs →
      resolveAll maps' us = .ok rs' → rs.map Read.anon = rs'.map Read.anon := by
  intro us
  induction us with
  | nil => intro rs rs' h h'; cases h; cases h'; rfl
  | cons u us ih =>
    intro rs rs' h h'
    unfold resolveAll at h h'
    cases h1 : resolve maps u.phase u.ref with
    | error e => rw [h1] at h; cases h
    | ok m =>
      cases h1' : resolve maps' u.phase u.ref with
      | error e => rw [h1'] at h'; cases h'
      | ok m' =>
        rw [h1] at h; rw [h1'] at h'
        cases h2 : resolveAll maps us with
        | error e => rw [h2] at h; cases h
        | ok xs =>
          cases h2' : resolveAll maps' us with
          | error e => rw [h2'] at h'; cases h'
          | ok ys =>
            rw [h2] at h; rw [h2'] at h'
            cases h; cases h'
            simp only [List.map_cons, ih h2 h2', Read.anon, resolve_anon hn hn' hk h1 h1']

theorem Inv.same_kinds {done' : List Builder} {c' : Collection} (h : Inv done c) (h' : Inv done' c')
    (hp : done.Perm done') (t : Ty) (n : Name) :
    (lookup c.maps t n).map Index.kind = (lookup c'.maps t n).map Index.kind := by
  have half : ∀ {d d' : List Builder} {c c' : Collection}, Inv d c → Inv d' c' → d.Perm d' →
      ∀ {idx}, lookup c.maps t n = some idx → ∃ idx', lookup c'.maps t n = some idx' ∧
        idx.kind = idx'.kind := by
    intro d d' c c' h h' hp idx hl
    obtain ⟨b, hb, rfl, rfl⟩ := h.of_lookup hl
    obtain ⟨i, h1, h2⟩ := h.calculable (bs := d) (fun _ h => h) d [] (by simp) b hb
    rw [hl] at h1; cases h1
    obtain ⟨i', h3, h4⟩ := h'.calculable (bs := d) (fun b hb => hp.mem_iff.2 hb) d' [] (by simp) b
      (hp.mem_iff.1 hb)
    exact ⟨i', h3, (h2.unique h.nodup h4).2⟩
  cases hl : lookup c.maps t n with
  | some idx =>
    obtain ⟨i', h1, h2⟩ := half h h' hp hl
    rw [h1, Option.map_some, Option.map_some, h2]
  | none =>
    cases hl' : lookup c'.maps t n with
    | none => rfl
    | some idx =>
      obtain ⟨i', h1, -⟩ := half h' h hp.symm hl'
      rw [h1] at hl; cases hl

theorem Inv.same_ops {done' : List Builder} {c' : Collection} (h : Inv done c) (h' : Inv done' c')
    (hp : done.Perm done') (st : Stage) (n : Name) :
    (opsOf c st n).map Op.anon = (opsOf c' st n).map Op.anon := by
  by_cases hn : n ∈ done.map Builder.name
  · obtain ⟨b, hb, rfl⟩ := List.mem_map.1 hn
    obtain ⟨form, rs, h1, h2, h3⟩ := h.fix b hb
    obtain ⟨form', rs', h1', h2', h3'⟩ := h'.fix b (hp.mem_iff.1 hb)
    rw [h3, h3']
    have hr := (attempt_built h1).1
    have hr' := (attempt_built h1').1
    have hanon := reads_anon (by rw [h.names]; exact h.nodup) (by rw [h'.names]; exact h'.nodup)
      (h.same_kinds h' hp) hr hr'
    have hshape : rs.map Read.shape = rs'.map Read.shape := by
      have := congrArg (List.map Read.shape) hanon
      simpa only [List.map_map, Function.comp_def, Read.anon_shape] using this
    have hf : form = form' := by
      rw [(attempt_built h1).2.1, (attempt_built h1').2.1, hshape]
    rw [hf]
    exact newOps_anon st hanon
  · have none : ∀ {d : List Builder} {c : Collection}, Inv d c → n ∉ d.map Builder.name →
        opsOf c st n = [] := by
      intro d c h hn
      unfold opsOf
      rw [List.filter_eq_nil_iff]
      intro p hp he
      have he : p.name = n := by simpa using he
      exact hn (he ▸ h.named st p hp)
    rw [none h hn, none h' (by rw [← (hp.map Builder.name).mem_iff]; exact hn)]

/-! ## Termination -/

theorem pass_length : ∀ (bs : List Builder) (c c' : Collection) (failed : List (Builder × Name)),
    pass c bs = .ok (c', failed) → failed.length ≤ bs.length := by
  intro bs
  induction bs with
  | nil => intro c c' failed h; cases h; exact Nat.le_refl _
  | cons b bs ih =>
    intro c c' failed h
    unfold pass at h
    split at h
    · cases h
    · split at h
      · cases h
      · exact Nat.le_succ_of_le (ih _ _ _ h)
      · split at h
        · cases h
        · cases h
          exact Nat.succ_le_succ (ih _ _ _ (by assumption))

theorem loop_terminates : ∀ (fuel : Nat) (bs : List Builder) (c : Collection), bs.length < fuel →
    loop fuel c bs ≠ none := by
  intro fuel
  induction fuel with
  | zero => intro bs c h; omega
  | succ fuel ih =>
    intro bs c h
    unfold loop
    split
    · simp
    · split
      · simp
      · rename_i c' failed hp
        split
        · simp
        · refine ih _ _ ?_
          have := pass_length _ _ _ _ hp
          rw [List.length_map]
          omega

theorem loop_fuel : ∀ (fuel : Nat) (bs : List Builder) (c : Collection) (r : Except BuildError Collection),
    loop fuel c bs = some r → loop (fuel + 1) c bs = some r := by
  intro fuel
  induction fuel with
  | zero => intro bs c r h; cases h
  | succ fuel ih =>
    intro bs c r h
    rw [loop] at h ⊢
    split at h
    · rw [if_pos (by assumption)]; exact h
    · rw [if_neg (by assumption)]
      split at h
      · exact h
      · split at h
        · rw [if_pos (by assumption)]; exact h
        · rw [if_neg (by assumption)]
          exact ih _ _ _ h

end Verif.Params
