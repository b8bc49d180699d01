import Verif.Lemmas.ParamRunInv

namespace Verif.Params

variable {V S W : Type} {done bs : List Builder} {c : Collection}

/-! ## Forms and plans -/

theorem Inv.takes (h : Inv done c) (hsub : ∀ b ∈ done, b ∈ bs) {b : Builder} {form : Form} {rs : List Read}
    (ha : attempt c.maps b = .built form rs) : Takes bs b form := by
  obtain ⟨h1, h2, -⟩ := attempt_built ha
  obtain ⟨h3, h4⟩ := resolveAll_ok h1
  refine ⟨rs.map Read.shape, ?_, h2⟩
  rw [← h3, List.forall₂_map_left_iff, List.forall₂_map_right_iff, List.forall₂_same]
  intro r hr
  have hres := h4 r hr
  cases ht : r.use.ref.target with
  | none =>
    rcases resolve_unaimed ht hres with ⟨h5, h6⟩ | ⟨h5, h6⟩
    · exact Or.inl ⟨h5, by rw [Read.shape, h6]; rfl⟩
    · exact Or.inr (Or.inl ⟨h5, by rw [Read.shape, h6]; rfl⟩)
  | some m =>
    obtain ⟨s, hs⟩ := resolve_target hres ht
    rw [hs] at hres
    obtain ⟨p, -, -, -, hg⟩ := h.leads hsub hres
    rw [Read.shape, hs, slot_shape]
    exact Or.inr (Or.inr hg)

theorem Gives.target {u : Use} {sh : Shape} (h : Gives bs u sh) : u.ref.target.isSome := by
  obtain ⟨b, -, h1, -⟩ := h
  rw [h1]; rfl

theorem Takes.unique (hn : (bs.map Builder.name).Nodup) {b : Builder} {form form' : Form} (h : Takes bs b form)
    (h' : Takes bs b form') : form = form' := by
  obtain ⟨sh, h1, rfl⟩ := h
  obtain ⟨sh', h2, rfl⟩ := h'
  suffices sh = sh' by rw [this]
  revert h1 h2
  generalize b.uses = us
  induction us generalizing sh sh' with
  | nil =>
    intro h1 h2
    rw [List.forall₂_nil_left_iff] at h1 h2
    rw [h1, h2]
  | cons u us ih =>
    intro h1 h2
    obtain ⟨a, sh1, q1, h3, rfl⟩ := List.forall₂_cons_left_iff.1 h1
    obtain ⟨a', sh2, q2, h4, rfl⟩ := List.forall₂_cons_left_iff.1 h2
    rw [ih _ _ h3 h4]
    congr 1
    rcases q1 with ⟨g, e⟩ | ⟨g, e⟩ | g <;> rcases q2 with ⟨g', e'⟩ | ⟨g', e'⟩ | g'
    · rw [e, e']
    · rw [g] at g'; cases g'
    · have := g'.target; rw [g] at this; cases this
    · rw [g] at g'; cases g'
    · rw [e, e']
    · have := g'.target; rw [g] at this; cases this
    · have := g.target; rw [g'] at this; cases this
    · have := g.target; rw [g'] at this; cases this
    · exact g.unique hn g'

/-- What an operation amounts to, without positions in the value arrays: the parameter, whether there is a
value, and the references used. -/
structure Plan where
  name : Name
  value : Bool
  uses : List Use

def Op.plan (op : Op) : Plan := ⟨op.name, op.out.isSome, op.reads.map Read.use⟩

def plans (b : Builder) (form : Form) (st : Stage) : List Plan :=
  match form, st with
  | .const, .const => [⟨b.name, true, b.uses⟩]
  | .simple, .simple => [⟨b.name, true, b.uses⟩]
  | .general true _, .before => [⟨b.name, true, b.uses.filter fun u => u.phase ≠ .after⟩]
  | .general _ .value, .after => [⟨b.name, true, b.uses.filter fun u => u.phase ≠ .before⟩]
  | .general _ .hook, .after => [⟨b.name, false, b.uses.filter fun u => u.phase ≠ .before⟩]
  | _, _ => []

theorem plan_anon (op : Op) : op.anon.plan = op.plan := by
  simp [Op.plan, Op.anon, List.map_map, Function.comp_def]

theorem newOps_plan (c : Collection) (b : Builder) (form : Form) (rs : List Read) (hrs : rs.map Read.use = b.uses)
    (st : Stage) : (newOps c b form rs st).map Op.plan = plans b form st := by
  have hb : (readsBefore rs).map Read.use = b.uses.filter fun u => u.phase ≠ .after := by
    rw [← hrs, List.filter_map]; rfl
  have ha : (readsAfter rs).map Read.use = b.uses.filter fun u => u.phase ≠ .before := by
    rw [← hrs, List.filter_map]; rfl
  rcases form with _ | _ | ⟨_ | _, _ | _ | _⟩ <;> cases st <;>
    simp only [newOps, plans, List.map_cons, List.map_nil, if_true, Op.plan, Option.isSome_some, Option.isSome_none,
      hrs, hb, ha] <;> rfl

theorem Inv.plan_of (h : Inv done c) (hsub : ∀ b ∈ done, b ∈ bs) {b : Builder} (hb : b ∈ done) :
    ∃ form, Takes bs b form ∧ ∀ st, (opsOf c st b.name).map Op.plan = plans b form st := by
  obtain ⟨form, rs, h1, -, h3⟩ := h.fix b hb
  refine ⟨form, h.takes hsub h1, fun st => ?_⟩
  rw [← newOps_plan c b form rs (resolveAll_ok (attempt_built h1).1).1 st]
  have := congrArg (List.map Op.plan) (h3 st)
  simpa only [List.map_map, Function.comp_def, plan_anon] using this

/-! ## The equations of a stage -/

/-- The equation of an operation. -/
def PlanEq (bs : List Builder) (k : Calcs V S W) (H : History V S W) (st : Stage) (t : Nat) (w : W)
    (i i' : Name → S) (p : Plan) : Prop :=
  ∃ vs, Given bs H k.zero st t p.uses vs ∧
    if p.value then k.compute p.name st t (sees st w) (i p.name) vs = some (H.value t st p.name, i' p.name)
    else k.hook p.name t w (i p.name) vs = some (i' p.name)

/-- The values of some stages are there. -/
def Known (c : Collection) (H : History V S W) (zero : V) (known : Stage → Prop) (st : Stage) (t : Nat)
    (store : Slot → V) : Prop :=
  ∀ st' p s, known st' → p ∈ c.ops st' → p.out = some s → store s = H.meaning zero st t p.name st'.shape

/-- What is known before a stage. -/
def prior (st st' : Stage) : Prop := st'.rank < st.rank ∨ (st' = .after ∧ st ≠ .after)

/-- What is known after a stage. -/
def past (st st' : Stage) : Prop := st'.rank ≤ st.rank ∨ st' = .after

theorem Inv.solves_iff (h : Inv done c) (hsub : ∀ b ∈ done, b ∈ bs) (hn : (bs.map Builder.name).Nodup)
    {k : Calcs V S W} {H : History V S W} {st : Stage} {t : Nat} (ht : st = .const → t = 0) {x x' : Scene V S W}
    (hd : Known c H k.zero (past st) st t x'.store) {op : Op} (ho : op ∈ c.ops st) :
    Solves k st t x x' op ↔ PlanEq bs k H st t x.world x.inner x'.inner op.plan := by
  have hg := fun vs => h.given_iff hsub hn H k.zero st t x'.store vs op.reads (h.res st op ho) (by
    intro r hr s hs p hp hps
    refine hd s.stage p s ?_ hp hps
    obtain ⟨pre, post, he⟩ := List.append_of_mem ho
    obtain ⟨q, -, -, h3⟩ := h.ord st pre op post he r hr s hs
    rcases h3 with ⟨h3, -⟩ | ⟨h3, -⟩ | ⟨-, h3, -⟩
    · exact Or.inl (by omega)
    · exact Or.inl (by rw [h3])
    · exact Or.inr h3)
  unfold Solves PlanEq Op.plan
  simp only [hg, exists_eq_left]
  cases hout : op.out with
  | none => simp
  | some s =>
    have hv : x'.store s = H.value t st op.name := by
      rw [hd st op s (Or.inl (le_refl _)) ho hout]
      cases st with
      | const => rw [ht rfl]; rfl
      | simple => rfl
      | before => rfl
      | after => simp [Stage.shape, History.meaning]
    simp [hv]

/-- The scene after a stage, as a history tells it. -/
noncomputable def told (c : Collection) (H : History V S W) (st : Stage) (t : Nat) (x : Scene V S W)
    (i' : Name → S) : Scene V S W where
  store := fun s =>
    match (c.ops st).find? (fun p => p.out = some s) with
    | some p => H.value t st p.name
    | none => x.store s
  inner := fun n => if n ∈ (c.ops st).map Op.name then i' n else x.inner n
  world := x.world

theorem told_keeps (c : Collection) (H : History V S W) (st : Stage) (t : Nat) (x : Scene V S W)
    (i' : Name → S) : Keeps (c.ops st) x (told c H st t x i') := by
  refine ⟨?_, ?_, rfl⟩
  · intro s hs
    have : (c.ops st).find? (fun p => p.out = some s) = none := by
      rw [List.find?_eq_none]
      intro p hp he
      exact hs (List.mem_filterMap.2 ⟨p, hp, by simpa using he⟩)
    simp only [told, this]
  · intro n hn
    simp only [told, hn, if_false]

theorem Inv.told_known (h : Inv done c) {H : History V S W} {zero : V} {st : Stage} {t : Nat}
    (ht : st = .const → t = 0) {x : Scene V S W} {i' : Name → S}
    (hk : Known c H zero (prior st) st t x.store) : Known c H zero (past st) st t (told c H st t x i').store := by
  intro st' p s hp hm ho
  have hs := h.outStage hm ho
  by_cases he : st' = st
  · subst he
    have : (c.ops st').find? (fun p => p.out = some s) = some p := by
      cases hf : (c.ops st').find? (fun p => p.out = some s) with
      | none =>
        rw [List.find?_eq_none] at hf
        exact absurd (by simpa using ho) (hf p hm)
      | some q =>
        have h1 := List.mem_of_find?_eq_some hf
        have h2 := List.find?_some hf
        rw [h.writer hm h1 ho (by simpa using h2)]
    simp only [told, this]
    cases st' with
    | const => rw [ht rfl]; rfl
    | simple => rfl
    | before => rfl
    | after => simp [Stage.shape, History.meaning]
  · rw [(told_keeps c H st t x i').store s]
    · refine hk st' p s ?_ hm ho
      rcases hp with hp | hp
      · left
        refine lt_of_le_of_ne hp ?_
        intro hr
        apply he
        cases st <;> cases st' <;> simp_all [Stage.rank]
      · exact Or.inr ⟨hp, fun hst => he (by rw [hp, hst])⟩
    · intro hm'
      exact he (by rw [← hs, (h.outs st s hm').1])

/-- A stage that obeys the equations succeeds. -/
theorem Inv.stage_of (h : Inv done c) (hsub : ∀ b ∈ done, b ∈ bs) (hn : (bs.map Builder.name).Nodup)
    {k : Calcs V S W} {H : History V S W} {st : Stage} {t : Nat} (ht : st = .const → t = 0) {x : Scene V S W}
    (hk : Known c H k.zero (prior st) st t x.store) {i i' : Name → S}
    (hi : ∀ op ∈ c.ops st, x.inner op.name = i op.name)
    (he : ∀ op ∈ c.ops st, PlanEq bs k H st t x.world i i' op.plan) :
    ∃ x', calcAll k st t (c.ops st) x = some x' ∧ Known c H k.zero (past st) st t x'.store ∧ x'.world = x.world ∧
      (∀ op ∈ c.ops st, x'.inner op.name = i' op.name) ∧
      (∀ n, n ∉ (c.ops st).map Op.name → x'.inner n = x.inner n) := by
  have hd := h.told_known ht hk (i' := i')
  have hin : ∀ op ∈ c.ops st, (told c H st t x i').inner op.name = i' op.name := by
    intro op ho
    have : op.name ∈ (c.ops st).map Op.name := List.mem_map_of_mem ho
    simp only [told, this, if_true]
  have hkeep := told_keeps c H st t x i'
  refine ⟨told c H st t x i', ?_, hd, rfl, hin, hkeep.inner⟩
  rw [calcAll_iff k st t _ _ _ (h.sorted st)]
  refine ⟨hkeep, fun op ho => ?_⟩
  rw [h.solves_iff hsub hn ht hd ho]
  have := he op ho
  unfold PlanEq at this ⊢
  simp only [Op.plan] at this ⊢
  rw [hi op ho, hin op ho]
  exact this

/-- A stage that succeeds obeys the equations. -/
theorem Inv.stage_to (h : Inv done c) (hsub : ∀ b ∈ done, b ∈ bs) (hn : (bs.map Builder.name).Nodup)
    {k : Calcs V S W} {H : History V S W} {st : Stage} {t : Nat} (ht : st = .const → t = 0) {x x' : Scene V S W}
    (hc : calcAll k st t (c.ops st) x = some x') (hd : Known c H k.zero (past st) st t x'.store) :
    ∀ op ∈ c.ops st, PlanEq bs k H st t x.world x.inner x'.inner op.plan := by
  intro op ho
  rw [← h.solves_iff hsub hn ht hd ho]
  exact ((calcAll_iff k st t _ _ _ (h.sorted st)).1 hc).2 op ho

/-! ## From operations to definitions -/

theorem mem_opsOf {st : Stage} {n : Name} {op : Op} : op ∈ opsOf c st n ↔ op ∈ c.ops st ∧ op.name = n := by
  simp [opsOf]

/-- Statements about operations are statements about the plans of the definitions. -/
theorem Inv.ops_iff (h : Inv done c) (hsub : ∀ b ∈ done, b ∈ bs) (hn : (bs.map Builder.name).Nodup)
    (hall : ∀ b ∈ bs, b ∈ done) (st : Stage) (P : Plan → Prop) :
    (∀ op ∈ c.ops st, P op.plan) ↔ ∀ b ∈ bs, ∀ form, Takes bs b form → ∀ p ∈ plans b form st, P p := by
  constructor
  · intro hp b hb form hf p hm
    obtain ⟨form', hf', hpl⟩ := h.plan_of hsub (hall b hb)
    rw [hf.unique hn hf', ← hpl st] at hm
    obtain ⟨op, ho, rfl⟩ := List.mem_map.1 hm
    exact hp op (mem_opsOf.1 ho).1
  · intro hp op ho
    obtain ⟨b, hb, he⟩ := List.mem_map.1 (h.named st op ho)
    obtain ⟨form, hf, hpl⟩ := h.plan_of hsub hb
    refine hp b (hsub b hb) form hf op.plan ?_
    rw [← hpl st]
    exact List.mem_map_of_mem (mem_opsOf.2 ⟨ho, he.symm⟩)

theorem Inv.named_iff (h : Inv done c) (hsub : ∀ b ∈ done, b ∈ bs) (hn : (bs.map Builder.name).Nodup)
    {b : Builder} (hb : b ∈ done) {form : Form} (hf : Takes bs b form) (st : Stage) :
    b.name ∈ (c.ops st).map Op.name ↔ plans b form st ≠ [] := by
  obtain ⟨form', hf', hpl⟩ := h.plan_of hsub hb
  rw [hf.unique hn hf', ← hpl st, Ne, List.map_eq_nil_iff, List.mem_map]
  constructor
  · rintro ⟨op, ho, he⟩ h0
    have : op ∈ opsOf c st b.name := mem_opsOf.2 ⟨ho, he⟩
    rw [h0] at this; cases this
  · intro h0
    obtain ⟨op, ho⟩ := List.exists_mem_of_ne_nil _ h0
    exact ⟨op, mem_opsOf.1 ho⟩

end Verif.Params
