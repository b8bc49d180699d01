import Verif.Lemmas.Params

namespace Verif.Params

/-- The operations added for a parameter. -/
def newOps (c : Collection) (b : Builder) (form : Form) (rs : List Read) (st : Stage) : List Op :=
  match form, st with
  | .const, .const => [⟨b.name, some ⟨.const, b.ty, nextIndex (c.ops .const) b.ty⟩, rs⟩]
  | .simple, .simple => [⟨b.name, some ⟨.simple, b.ty, nextIndex (c.ops .simple) b.ty⟩, rs⟩]
  | .general x _, .before =>
    if x then [⟨b.name, some ⟨.before, b.ty, nextIndex (c.ops .before) b.ty⟩, readsBefore rs⟩] else []
  | .general _ y, .after =>
    match y with
    | .none => []
    | .value => [⟨b.name, some ⟨.after, b.ty, nextIndex (c.ops .after) b.ty⟩, readsAfter rs⟩]
    | .hook => [⟨b.name, none, readsAfter rs⟩]
  | _, _ => []

/-- The index registered for a parameter. -/
def newIndex (c : Collection) (b : Builder) (form : Form) : Index :=
  match form with
  | .const => .const (nextIndex (c.ops .const) b.ty)
  | .simple => .simple (nextIndex (c.ops .simple) b.ty)
  | .general x y => .general (if x then some (nextIndex (c.ops .before) b.ty) else none)
      (if y = .value then some (nextIndex (c.ops .after) b.ty) else none)

theorem push_ops (c : Collection) (b : Builder) (form : Form) (rs : List Read) (st : Stage) :
    (push c b form rs).ops st = c.ops st ++ newOps c b form rs st := by
  cases form with
  | const => cases st <;> simp [push, Collection.addValue, Collection.addOp, Collection.register, newOps]
  | simple => cases st <;> simp [push, Collection.addValue, Collection.addOp, Collection.register, newOps]
  | general x y =>
    cases x <;> cases y <;> cases st <;>
      simp [push, pushBefore, pushAfter, Collection.addValue, Collection.addOp, Collection.register, newOps]

theorem push_maps (c : Collection) (b : Builder) (form : Form) (rs : List Read) :
    (push c b form rs).maps = c.maps ++ [(b.name, b.ty, newIndex c b form)] := by
  cases form with
  | const => simp [push, Collection.addValue, Collection.addOp, Collection.register, newIndex]
  | simple => simp [push, Collection.addValue, Collection.addOp, Collection.register, newIndex]
  | general x y =>
    cases x <;> cases y <;>
      simp [push, pushBefore, pushAfter, Collection.addValue, Collection.addOp, Collection.register,
        newIndex]

/-- At most one operation is added to each schedule. -/
theorem newOps_cases (c : Collection) (b : Builder) (form : Form) (rs : List Read) (st : Stage) :
    newOps c b form rs st = [] ∨ ∃ op, newOps c b form rs st = [op] ∧ op.name = b.name ∧
      (∀ s, op.out = some s → s = ⟨st, b.ty, nextIndex (c.ops st) b.ty⟩) ∧
      (∀ r ∈ op.reads, r ∈ rs ∧ (st = .before → r.use.phase ≠ .after)) := by
  cases form with
  | const => cases st <;> simp [newOps]
  | simple => cases st <;> simp [newOps]
  | general x y =>
    cases x <;> cases y <;> cases st <;> simp [newOps, readsBefore, readsAfter]
    all_goals (intro s h; simp_all)

theorem newOps_out (c : Collection) (b : Builder) (form : Form) (rs : List Read) (s : Slot)
    (h : s ∈ (newIndex c b form).slots b.ty) :
    ∃ op ∈ newOps c b form rs s.stage, op.out = some s ∧ op.name = b.name := by
  cases form with
  | const => simp only [newIndex, Index.slots, List.mem_singleton] at h; subst h; simp [newOps]
  | simple => simp only [newIndex, Index.slots, List.mem_singleton] at h; subst h; simp [newOps]
  | general x y =>
    cases x <;> cases y <;> simp [newIndex, Index.slots] at h
    all_goals (first | (rcases h with h | h <;> subst h <;> simp [newOps]) | (subst h; simp [newOps]))

def Index.kind : Index → Kind
  | .const _ => .const
  | .simple _ => .simple
  | .general b a => .general b.isSome a.isSome

theorem newIndex_kind (c : Collection) (b : Builder) (form : Form) :
    (newIndex c b form).kind = form.kind := by
  cases form with
  | const => rfl
  | simple => rfl
  | general x y => cases x <;> cases y <;> rfl

def Read.anon (r : Read) : Read := { r with metric := r.metric.anon }

theorem Metric.anon_shape (m : Metric) : m.anon.shape = m.shape := by
  rcases m with ⟨_ | _ | _ | _, _, _⟩ | _ | _ <;> rfl

theorem Read.anon_shape (r : Read) : r.anon.shape = r.shape := r.metric.anon_shape

/-- The operations added are determined by the reads, up to positions. -/
theorem newOps_anon {c c' : Collection} {b : Builder} {form : Form} {rs rs' : List Read} (st : Stage)
    (h : rs.map Read.anon = rs'.map Read.anon) :
    (newOps c b form rs st).map Op.anon = (newOps c' b form rs' st).map Op.anon := by
  have filt : ∀ f : Phase → Bool, (rs.filter (fun r => f r.use.phase)).map Read.anon =
      (rs'.filter (fun r => f r.use.phase)).map Read.anon := by
    intro f
    have := congrArg (List.filter (fun r => f r.use.phase)) h
    simpa only [List.filter_map, Function.comp_def, Read.anon] using this
  have hb : (readsBefore rs).map Read.anon = (readsBefore rs').map Read.anon :=
    filt (fun p => p ≠ .after)
  have ha : (readsAfter rs).map Read.anon = (readsAfter rs').map Read.anon :=
    filt (fun p => p ≠ .before)
  have key : ∀ (n : Name) (o o' : Option Slot) (xs ys : List Read),
      o.map (fun s => { s with i := 0 }) = o'.map (fun s => { s with i := 0 }) →
      xs.map Read.anon = ys.map Read.anon → Op.anon ⟨n, o, xs⟩ = Op.anon ⟨n, o', ys⟩ := by
    intro n o o' xs ys h1 h2
    simp only [Op.anon, h1]
    exact congrArg (Op.mk n _) h2
  cases form with
  | const => cases st <;> simp only [newOps, List.map_nil, List.map_cons]; rw [key _ _ _ _ _ rfl h]; rfl
  | simple => cases st <;> simp only [newOps, List.map_nil, List.map_cons]; rw [key _ _ _ _ _ rfl h]; rfl
  | general x y =>
    cases st with
    | const => rfl
    | simple => rfl
    | before =>
      cases x
      · rfl
      · simp only [newOps, if_true, List.map_nil, List.map_cons]; rw [key _ _ _ _ _ rfl hb]; rfl
    | after =>
      cases y
      · rfl
      · simp only [newOps, List.map_nil, List.map_cons]; rw [key _ _ _ _ _ rfl ha]; rfl
      · simp only [newOps, List.map_nil, List.map_cons]; rw [key _ _ _ _ _ rfl ha]

/-- A reference to a parameter resolves to one of its slots. -/
theorem resolve_target {maps : Maps} {p : Phase} {r : Ref} {m : Metric} {n : Name}
    (h : resolve maps p r = .ok m) (ht : r.target = some n) : ∃ s, m = .slot s := by
  have strict : ∀ n t idx w, resolveStrict n t idx w p = .ok m → ∃ s, m = .slot s := by
    intro n t idx w h
    obtain ⟨s, h, -⟩ := resolveStrict_slot h
    exact ⟨s, h⟩
  have lenient : ∀ n t idx w, resolveLenient n t idx w p = .ok m → ∃ s, m = .slot s := by
    intro n t idx w h
    obtain ⟨s, h, -⟩ := resolveLenient_slot h
    exact ⟨s, h⟩
  cases r with
  | literal => cases ht
  | component => cases ht
  | value n w =>
    simp only [resolve] at h
    split at h
    · exact strict _ _ _ _ h
    · split at h
      · exact strict _ _ _ _ h
      · cases h
  | valueMulti n w =>
    simp only [resolve] at h
    split at h
    · exact strict _ _ _ _ h
    · cases h
  | index n w =>
    simp only [resolve] at h
    split at h
    · exact lenient _ _ _ _ h
    · cases h
  | indexMulti n w =>
    simp only [resolve] at h
    split at h
    · exact lenient _ _ _ _ h
    · cases h

/-- Resolution depends on the registrations of the target only. -/
theorem resolve_congr {maps maps' : Maps} {p : Phase} {r : Ref}
    (h : ∀ n, r.target = some n → ∀ t, lookup maps t n = lookup maps' t n) :
    resolve maps p r = resolve maps' p r := by
  cases r with
  | literal => rfl
  | component => rfl
  | value n w => simp only [resolve, h n rfl]
  | valueMulti n w => simp only [resolve, h n rfl]
  | index n w => simp only [resolve, h n rfl]
  | indexMulti n w => simp only [resolve, h n rfl]

theorem resolve_stable {maps : Maps} {p : Phase} {r : Ref} {m : Metric} (e : Name × Ty × Index)
    (he : e.1 ∉ maps.map Prod.fst) (h : resolve maps p r = .ok m) :
    resolve (maps ++ [e]) p r = .ok m := by
  rw [← h]
  refine (resolve_congr ?_).symm
  intro n hn t
  obtain ⟨s, rfl⟩ := resolve_target h hn
  obtain ⟨n', t', idx, h1, -, h2, -⟩ := (resolve_slot h).reg
  rw [hn] at h1; cases h1
  refine (lookup_append_ne e ?_).symm
  intro hne
  exact he (hne ▸ List.mem_map_of_mem (lookup_mem h2))

theorem resolveAll_stable {maps : Maps} (e : Name × Ty × Index) (he : e.1 ∉ maps.map Prod.fst) :
    ∀ {us : List Use} {rs : List Read}, resolveAll maps us = .ok rs →
      resolveAll (maps ++ [e]) us = .ok rs := by
  intro us
  induction us with
  | nil => intro rs h; exact h
  | cons u us ih =>
    intro rs h
    unfold resolveAll at h ⊢
    cases h1 : resolve maps u.phase u.ref with
    | error e => rw [h1] at h; cases h
    | ok m =>
      rw [h1] at h
      rw [resolve_stable e he h1]
      cases h2 : resolveAll maps us with
      | error e => rw [h2] at h; cases h
      | ok rs' =>
        rw [h2] at h
        rw [ih h2]
        exact h

theorem attempt_stable {maps : Maps} (e : Name × Ty × Index) (he : e.1 ∉ maps.map Prod.fst)
    {b : Builder} {form : Form} {rs : List Read} (h : attempt maps b = .built form rs) :
    attempt (maps ++ [e]) b = .built form rs := by
  have h1 := (attempt_built h).1
  unfold attempt at h ⊢
  rw [h1] at h
  rw [resolveAll_stable e he h1]
  exact h

/-- Where the writer `p` of a slot read by an operation stands. -/
def Earlier (c : Collection) (st : Stage) (pre : List Op) (r : Read) (s : Slot) (p : Op) : Prop :=
  (s.stage.rank < st.rank ∧ p ∈ c.ops s.stage) ∨ (s.stage = st ∧ p ∈ pre) ∨
    (st = .before ∧ s.stage = .after ∧ r.use.ref.want = some .afterOrInitial ∧ p ∈ c.ops .after)

/-- The invariant of the build loop; `done` are the builders consumed so far. -/
structure Inv (done : List Builder) (c : Collection) : Prop where
  maps : c.maps.map (fun e => (e.1, e.2.1)) = done.map (fun b => (b.name, b.ty))
  nodup : (done.map Builder.name).Nodup
  reg : ∀ n t idx, (n, t, idx) ∈ c.maps → ∀ s ∈ idx.slots t,
    ∃ p ∈ c.ops s.stage, p.out = some s ∧ p.name = n
  named : ∀ st, ∀ p ∈ c.ops st, p.name ∈ done.map Builder.name
  ord : ∀ st pre op post, c.ops st = pre ++ op :: post → ∀ r ∈ op.reads, ∀ s, r.metric = .slot s →
    ∃ p, p.out = some s ∧ r.use.ref.target = some p.name ∧ Earlier c st pre r s p
  strict : ∀ st, ∀ op ∈ c.ops st, ∀ r ∈ op.reads, ∀ s, r.metric = .slot s →
    (s.stage = .after → (r.use.ref.want = some .after ∧ st = .after) ∨
      r.use.ref.want = some .afterOrInitial) ∧
    (r.use.ref.Strict → (r.use.ref.want = some .before ↔ s.stage ≠ .after))
  outs : ∀ st, ∀ s ∈ outs (c.ops st), s.stage = st ∧ s.i < nextIndex (c.ops st) s.ty
  outsNodup : ∀ st, (Verif.Params.outs (c.ops st)).Nodup
  once : ∀ b ∈ done, EvaluatedOnce c b
  res : ∀ st, ∀ op ∈ c.ops st, ∀ r ∈ op.reads, resolve c.maps r.use.phase r.use.ref = .ok r.metric
  fix : ∀ b ∈ done, ∃ form rs, attempt c.maps b = .built form rs ∧
    (lookup c.maps b.ty b.name).map Index.kind = some form.kind ∧
    ∀ st, (opsOf c st b.name).map Op.anon = (newOps c b form rs st).map Op.anon
  dep : ∀ pre b post, done = pre ++ b :: post → ∀ u ∈ b.uses, u.ref.target ≠ none → Exists pre u.ref

theorem Inv.empty : Inv [] Collection.empty := by
  constructor <;> simp [Collection.empty, Verif.Params.outs]

theorem Inv.names {done : List Builder} {c : Collection} (h : Inv done c) :
    c.maps.map Prod.fst = done.map Builder.name := by
  have := congrArg (List.map Prod.fst) h.maps
  simpa [List.map_map, Function.comp_def] using this

theorem Inv.hasName {done : List Builder} {c : Collection} (h : Inv done c) (n : Name) :
    c.hasName n = true ↔ n ∈ done.map Builder.name := by
  rw [← h.names]
  simp [Collection.hasName]

theorem opsOf_append_ne {c c' : Collection} {st : Stage} {new : List Op} {n m : Name}
    (h : c'.ops st = c.ops st ++ new) (hn : ∀ p ∈ new, p.name = m) (hne : m ≠ n) :
    opsOf c' st n = opsOf c st n := by
  unfold opsOf
  rw [h, List.filter_append]
  have : new.filter (fun op => op.name = n) = [] := by
    rw [List.filter_eq_nil_iff]
    intro p hp
    rw [hn p hp]; simpa using hne
  rw [this, List.append_nil]

theorem opsOf_new {c c' : Collection} {st : Stage} {new : List Op} {n : Name}
    (h : c'.ops st = c.ops st ++ new) (hn : ∀ p ∈ new, p.name = n)
    (hf : ∀ p ∈ c.ops st, p.name ≠ n) : opsOf c' st n = new := by
  unfold opsOf
  rw [h, List.filter_append]
  have h1 : (c.ops st).filter (fun op => op.name = n) = [] := by
    rw [List.filter_eq_nil_iff]
    intro p hp
    simpa using hf p hp
  have h2 : new.filter (fun op => op.name = n) = new := by
    rw [List.filter_eq_self]; intro p hp; simpa using hn p hp
  rw [h1, h2, List.nil_append]

theorem evaluatedOnce_congr {c c' : Collection} {b : Builder}
    (h : ∀ st, opsOf c' st b.name = opsOf c st b.name) (he : EvaluatedOnce c b) : EvaluatedOnce c' b := by
  cases he with
  | const s rs u h1 h2 h3 h4 h5 =>
    exact .const s rs u (by rw [h]; exact h1) (by rw [h]; exact h2) (by rw [h]; exact h3)
      (by rw [h]; exact h4) h5
  | simple s rs u h1 h2 h3 h4 h5 =>
    exact .simple s rs u (by rw [h]; exact h1) (by rw [h]; exact h2) (by rw [h]; exact h3)
      (by rw [h]; exact h4) h5
  | general hb a s s' rs rs' u u' h1 h2 h3 h4 h5 =>
    exact .general hb a s s' rs rs' u u' (by rw [h]; exact h1) (by rw [h]; exact h2)
      (by rw [h]; exact h3) (by rw [h]; exact h4) h5

theorem formOf_general {st : Style} {ms : List Shape} {x : Bool} {y : AfterOp}
    (h : formOf st ms = .general x y) :
    st = .general x y ∨ (x = true ∧ ((st = .simplest ∧ y = .none) ∨ st = .simpleOr y)) := by
  unfold formOf at h
  cases st with
  | constant => cases h
  | simple => cases h
  | simplest =>
    simp only at h
    split at h
    · cases h
    · split at h
      · cases h
      · cases h; exact Or.inr ⟨rfl, Or.inl ⟨rfl, rfl⟩⟩
  | simpleOr a =>
    simp only at h
    split at h
    · cases h
    · cases h; exact Or.inr ⟨rfl, Or.inr rfl⟩
  | general a b => cases h; exact Or.inl rfl

theorem formOf_const {st : Style} {ms : List Shape} (h : formOf st ms = .const) :
    st = .constant ∨ (st = .simplest ∧ ms.all Shape.isConst = true) := by
  unfold formOf at h
  cases st with
  | constant => exact Or.inl rfl
  | simple => cases h
  | simplest =>
    simp only at h
    split at h
    · exact Or.inr ⟨rfl, by assumption⟩
    · split at h <;> cases h
  | simpleOr a => simp only at h; split at h <;> cases h
  | general a b => cases h

theorem formOf_simple {st : Style} {ms : List Shape} (h : formOf st ms = .simple) :
    st = .simple ∨ ((st = .simplest ∨ ∃ a, st = .simpleOr a) ∧ ms.all Shape.isSimple = true) := by
  unfold formOf at h
  cases st with
  | constant => cases h
  | simple => exact Or.inl rfl
  | simplest =>
    simp only at h
    split at h
    · cases h
    · split at h
      · exact Or.inr ⟨Or.inl rfl, by assumption⟩
      · cases h
  | simpleOr a =>
    simp only at h
    split at h
    · exact Or.inr ⟨Or.inr ⟨a, rfl⟩, by assumption⟩
    · cases h
  | general a b => cases h

theorem shape_const {s : Slot} (h : (Metric.slot s).shape.isConst = true) : s.stage = .const := by
  obtain ⟨st, t, i⟩ := s
  cases st <;> simp_all [Metric.shape, Shape.isConst]

theorem shape_simple {s : Slot} (h : (Metric.slot s).shape.isSimple = true) :
    s.stage = .const ∨ s.stage = .simple := by
  obtain ⟨st, t, i⟩ := s
  cases st <;> simp_all [Metric.shape, Shape.isSimple]

theorem nextIndex_append (ops new : List Op) (t : Ty) :
    nextIndex (ops ++ new) t = nextIndex ops t + nextIndex new t := by
  simp [nextIndex, Verif.Params.outs, List.filterMap_append, List.countP_append]

theorem map_use_filter (rs : List Read) (f : Phase → Bool) :
    (rs.filter (fun r => f r.use.phase)).map Read.use = (rs.map Read.use).filter (fun u => f u.phase) := by
  induction rs with
  | nil => rfl
  | cons r rs ih =>
    simp only [List.filter_cons, List.map_cons]
    split <;> simp_all

theorem Inv.push {done : List Builder} {c : Collection} (h : Inv done c) {b : Builder}
    (hw : WellFormed b) (hn : c.hasName b.name = false) {form : Form} {rs : List Read}
    (ha : attempt c.maps b = .built form rs) : Inv (done ++ [b]) (push c b form rs) := by
  obtain ⟨hres, hform, -⟩ := attempt_built ha
  obtain ⟨huse, hmet⟩ := resolveAll_ok hres
  have hnew : b.name ∉ done.map Builder.name := by
    rw [← h.hasName, hn]; simp
  have hfresh : ∀ st, ∀ p ∈ c.ops st, p.name ≠ b.name := by
    intro st p hp he
    exact hnew (he ▸ h.named st p hp)
  have hnewName : ∀ st, ∀ p ∈ newOps c b form rs st, p.name = b.name := by
    intro st p hp
    rcases newOps_cases c b form rs st with h0 | ⟨op, h0, h1, -⟩
    · rw [h0] at hp; cases hp
    · rw [h0, List.mem_singleton] at hp; rw [hp]; exact h1
  have hsub : ∀ st, ∀ p ∈ c.ops st, p ∈ (Verif.Params.push c b form rs).ops st := by
    intro st p hp; rw [push_ops]; exact List.mem_append_left _ hp
  have hslot : ∀ r ∈ rs, ∀ s, r.metric = .slot s → Resolved c.maps r.use.phase r.use.ref s := by
    intro r hr s hs
    have := hmet r hr
    rw [hs] at this
    exact resolve_slot this
  have hnm : b.name ∉ c.maps.map Prod.fst := by rw [h.names]; exact hnew
  refine ⟨?_, ?_, ?_, ?_, ?_, ?_, ?_, ?_, ?_, ?_, ?_, ?_⟩
  · rw [push_maps, List.map_append, List.map_append, h.maps]; rfl
  · rw [List.map_append, List.nodup_append]
    refine ⟨h.nodup, by simp, ?_⟩
    intro x hx y hy hxy
    simp only [List.map_cons, List.map_nil, List.mem_singleton] at hy
    exact hnew (hy ▸ hxy ▸ hx)
  · intro n t idx hm s hs
    rw [push_maps, List.mem_append] at hm
    rcases hm with hm | hm
    · obtain ⟨p, hp, h1, h2⟩ := h.reg n t idx hm s hs
      exact ⟨p, hsub _ p hp, h1, h2⟩
    · simp only [List.mem_singleton, Prod.mk.injEq] at hm
      obtain ⟨rfl, rfl, rfl⟩ := hm
      obtain ⟨op, hop, h1, h2⟩ := newOps_out c b form rs s hs
      exact ⟨op, by rw [push_ops]; exact List.mem_append_right _ hop, h1, h2⟩
  · intro st p hp
    rw [push_ops, List.mem_append] at hp
    rw [List.map_append, List.mem_append]
    rcases hp with hp | hp
    · exact Or.inl (h.named st p hp)
    · exact Or.inr (by rw [hnewName st p hp]; simp)
  · intro st pre op post he r hr s hs
    rw [push_ops] at he
    have old : ∀ post', c.ops st = pre ++ op :: post' →
        ∃ p, p.out = some s ∧ r.use.ref.target = some p.name ∧
          Earlier (Verif.Params.push c b form rs) st pre r s p := by
      intro post' he'
      obtain ⟨p, h1, h2, h3⟩ := h.ord st pre op post' he' r hr s hs
      refine ⟨p, h1, h2, ?_⟩
      rcases h3 with ⟨h3, h4⟩ | h3 | ⟨h3, h4, h5, h6⟩
      · exact Or.inl ⟨h3, hsub _ _ h4⟩
      · exact Or.inr (Or.inl h3)
      · exact Or.inr (Or.inr ⟨h3, h4, h5, hsub _ _ h6⟩)
    rcases newOps_cases c b form rs st with h0 | ⟨op', h0, h1, h2, h3⟩
    · rw [h0, List.append_nil] at he
      exact old post he
    · rw [h0] at he
      rcases List.eq_nil_or_concat post with rfl | ⟨post', x, rfl⟩
      · have he' := List.append_inj' he rfl
        obtain ⟨hpre, hop⟩ := he'
        cases hop
        obtain ⟨hr1, hr2⟩ := h3 r hr
        have hR := hslot r hr1 s hs
        obtain ⟨n, t, idx, ht, -, hl, hsl⟩ := hR.reg
        obtain ⟨p, hp, hpo, hpn⟩ := h.reg n t idx (lookup_mem hl) s hsl
        refine ⟨p, hpo, by rw [ht, hpn], ?_⟩
        have stay : s.stage = st → Earlier (Verif.Params.push c b form rs) st pre r s p := by
          intro hst
          exact Or.inr (Or.inl ⟨hst, by rw [← hpre, ← hst]; exact hp⟩)
        have lower : s.stage.rank < st.rank → Earlier (Verif.Params.push c b form rs) st pre r s p :=
          fun hlt => Or.inl ⟨hlt, hsub _ _ hp⟩
        have hshape : ∀ f : Shape → Bool, (rs.map Read.shape).all f = true →
            f (Metric.slot s).shape = true := by
          intro f hf
          rw [List.all_eq_true] at hf
          have := hf r.shape (List.mem_map_of_mem hr1)
          rw [Read.shape, hs] at this
          exact this
        have hnil : b.uses = [] → False := by
          intro hu
          rw [hu] at huse
          rw [List.map_eq_nil_iff.1 huse] at hr1
          cases hr1
        cases hst : st with
        | const =>
          subst hst
          have hfc : form = .const := by
            cases form with
            | const => rfl
            | simple => simp [newOps] at h0
            | general x y => simp [newOps] at h0
          rcases formOf_const (hform ▸ hfc) with hsty | ⟨-, hall⟩
          · exact absurd (by unfold WellFormed at hw; rw [hsty] at hw; exact hw) hnil
          · exact stay (shape_const (hshape _ hall))
        | simple =>
          subst hst
          have hfc : form = .simple := by
            cases form with
            | const => simp [newOps] at h0
            | simple => rfl
            | general x y => simp [newOps] at h0
          rcases formOf_simple (hform ▸ hfc) with hsty | ⟨-, hall⟩
          · exact absurd (by unfold WellFormed at hw; rw [hsty] at hw; exact hw) hnil
          · rcases shape_simple (hshape _ hall) with hc | hc
            · exact lower (by rw [hc]; decide)
            · exact stay hc
        | before =>
          subst hst
          cases hss : s.stage with
          | const => exact lower (by rw [hss]; decide)
          | simple => exact lower (by rw [hss]; decide)
          | before => exact stay hss
          | after =>
            rcases hR.after hss with ⟨-, hph⟩ | hw'
            · exact absurd hph (hr2 rfl)
            · exact Or.inr (Or.inr ⟨rfl, hss, hw', by rw [hss] at hp; exact hsub _ _ hp⟩)
        | after =>
          subst hst
          cases hss : s.stage with
          | const => exact lower (by rw [hss]; decide)
          | simple => exact lower (by rw [hss]; decide)
          | before => exact lower (by rw [hss]; decide)
          | after => exact stay hss
      · rw [List.concat_eq_append, ← List.cons_append, ← List.append_assoc] at he
        exact old post' (List.append_inj' he rfl).1
  · intro st op hop r hr s hs
    rw [push_ops, List.mem_append] at hop
    rcases hop with hop | hop
    · exact h.strict st op hop r hr s hs
    · rcases newOps_cases c b form rs st with h0 | ⟨op', h0, h1, h2, h3⟩
      · rw [h0] at hop; cases hop
      · rw [h0, List.mem_singleton] at hop
        subst hop
        obtain ⟨hr1, hr2⟩ := h3 r hr
        have hR := hslot r hr1 s hs
        refine ⟨?_, hR.strict⟩
        intro hsa
        rcases hR.after hsa with ⟨hwa, hph⟩ | hwa
        · refine Or.inl ⟨hwa, ?_⟩
          have hshape : ∀ f : Shape → Bool, (rs.map Read.shape).all f = true →
              f (Metric.slot s).shape = true := by
            intro f hf
            rw [List.all_eq_true] at hf
            have := hf r.shape (List.mem_map_of_mem hr1)
            rw [Read.shape, hs] at this
            exact this
          have hnil : b.uses = [] → False := by
            intro hu
            rw [hu] at huse
            rw [List.map_eq_nil_iff.1 huse] at hr1
            cases hr1
          cases hst : st with
          | const =>
            subst hst
            have hfc : form = .const := by
              cases form with
              | const => rfl
              | simple => simp [newOps] at h0
              | general x y => simp [newOps] at h0
            rcases formOf_const (hform ▸ hfc) with hsty | ⟨-, hall⟩
            · exact absurd (by unfold WellFormed at hw; rw [hsty] at hw; exact hw) hnil
            · have := shape_const (hshape _ hall)
              rw [hsa] at this; cases this
          | simple =>
            subst hst
            have hfc : form = .simple := by
              cases form with
              | const => simp [newOps] at h0
              | simple => rfl
              | general x y => simp [newOps] at h0
            rcases formOf_simple (hform ▸ hfc) with hsty | ⟨-, hall⟩
            · exact absurd (by unfold WellFormed at hw; rw [hsty] at hw; exact hw) hnil
            · rcases shape_simple (hshape _ hall) with hc | hc <;> (rw [hsa] at hc; cases hc)
          | before => exact absurd hph (hr2 hst)
          | after => rfl
        · exact Or.inr hwa
  · intro st s hs
    rw [push_ops] at hs ⊢
    rw [nextIndex_append]
    simp only [Verif.Params.outs, List.filterMap_append, List.mem_append] at hs
    rcases hs with hs | hs
    · obtain ⟨h1, h2⟩ := h.outs st s hs
      exact ⟨h1, Nat.lt_of_lt_of_le h2 (Nat.le_add_right _ _)⟩
    · rcases newOps_cases c b form rs st with h0 | ⟨op', h0, h1, h2, h3⟩
      · rw [h0] at hs; cases hs
      · rw [h0] at hs ⊢
        rw [List.mem_filterMap] at hs
        obtain ⟨a, ha', hao⟩ := hs
        rw [List.mem_singleton] at ha'
        subst ha'
        have := h2 s hao
        subst this
        refine ⟨rfl, ?_⟩
        simp [nextIndex, Verif.Params.outs, hao]
  · intro st
    rw [push_ops]
    simp only [Verif.Params.outs, List.filterMap_append]
    rcases newOps_cases c b form rs st with h0 | ⟨op', h0, h1, h2, h3⟩
    · rw [h0, List.filterMap_nil, List.append_nil]; exact h.outsNodup st
    · rw [h0, List.nodup_append]
      refine ⟨h.outsNodup st, ?_, ?_⟩
      · cases hao : op'.out <;> simp [hao]
      · intro x hx y hy hxy
        subst hxy
        rw [List.mem_filterMap] at hy
        obtain ⟨a, ha', hao⟩ := hy
        rw [List.mem_singleton] at ha'
        subst ha'
        have h4 := h2 x hao
        have h5 := (h.outs st x hx).2
        rw [h4] at h5
        exact Nat.lt_irrefl _ h5
  · intro b' hb'
    rw [List.mem_append] at hb'
    rcases hb' with hb' | hb'
    · refine evaluatedOnce_congr ?_ (h.once b' hb')
      intro st
      refine opsOf_append_ne (push_ops c b form rs st) (hnewName st) ?_
      intro he
      exact hnew (he ▸ List.mem_map_of_mem hb')
    · rw [List.mem_singleton] at hb'
      subst hb'
      have hop : ∀ st, opsOf (Verif.Params.push c b' form rs) st b'.name = newOps c b' form rs st :=
        fun st => opsOf_new (push_ops c b' form rs st) (hnewName st) (hfresh st)
      cases hf : form with
      | const =>
        subst hf
        refine .const _ rs huse (hop _) (hop _) (hop _) (hop _) ?_
        rcases formOf_const hform.symm with h | ⟨h, -⟩
        · exact Or.inl h
        · exact Or.inr h
      | simple =>
        subst hf
        refine .simple _ rs huse (hop _) (hop _) (hop _) (hop _) ?_
        rcases formOf_simple hform.symm with h | ⟨h | h, -⟩
        · exact Or.inl h
        · exact Or.inr (Or.inl h)
        · exact Or.inr (Or.inr h)
      | general x y =>
        subst hf
        refine .general x y ⟨.before, b'.ty, nextIndex (c.ops .before) b'.ty⟩
          ⟨.after, b'.ty, nextIndex (c.ops .after) b'.ty⟩ (readsBefore rs) (readsAfter rs) ?_ ?_
          (hop _) (hop _) ?_ ?_ (formOf_general hform.symm)
        · rw [← huse]; exact map_use_filter rs (fun p => p ≠ .after)
        · rw [← huse]; exact map_use_filter rs (fun p => p ≠ .before)
        · rw [hop]; rfl
        · rw [hop]; cases y <;> rfl
  · intro st op hop r hr
    rw [push_maps]
    refine resolve_stable _ hnm ?_
    rw [push_ops, List.mem_append] at hop
    rcases hop with hop | hop
    · exact h.res st op hop r hr
    · rcases newOps_cases c b form rs st with h0 | ⟨op', h0, h1, h2, h3⟩
      · rw [h0] at hop; cases hop
      · rw [h0, List.mem_singleton] at hop
        subst hop
        exact hmet r (h3 r hr).1
  · intro b' hb'
    rw [List.mem_append] at hb'
    rcases hb' with hb' | hb'
    · obtain ⟨f, rs', h1, h2, h3⟩ := h.fix b' hb'
      have hne : b.name ≠ b'.name := by
        intro he
        exact hnew (he ▸ List.mem_map_of_mem hb')
      refine ⟨f, rs', ?_, ?_, ?_⟩
      · rw [push_maps]; exact attempt_stable _ hnm h1
      · rw [push_maps, lookup_append_ne _ hne]; exact h2
      · intro st
        rw [opsOf_append_ne (push_ops c b form rs st) (hnewName st) hne, h3 st]
        exact newOps_anon st rfl
    · rw [List.mem_singleton] at hb'
      subst hb'
      refine ⟨form, rs, ?_, ?_, ?_⟩
      · rw [push_maps]; exact attempt_stable _ hnm ha
      · rw [push_maps]
        have : lookup (c.maps ++ [(b'.name, b'.ty, newIndex c b' form)]) b'.ty b'.name =
            some (newIndex c b' form) := by
          refine lookup_of_mem ?_ (by simp)
          rw [List.map_append, List.nodup_append]
          refine ⟨by rw [h.names]; exact h.nodup, by simp, ?_⟩
          intro x hx y hy hxy
          simp only [List.map_cons, List.map_nil, List.mem_singleton] at hy
          exact hnm (hy ▸ hxy ▸ hx)
        rw [this, Option.map_some, newIndex_kind]
      · intro st
        rw [opsOf_new (push_ops c b' form rs st) (hnewName st) (hfresh st)]
        exact newOps_anon st rfl
  · intro pre b' post he u hu ht
    rcases List.eq_nil_or_concat post with rfl | ⟨post', x, rfl⟩
    · obtain ⟨hpre, hb⟩ := List.append_inj' he rfl
      cases hb
      rw [← huse, List.mem_map] at hu
      obtain ⟨r, hr, rfl⟩ := hu
      obtain ⟨n, hn'⟩ := Option.ne_none_iff_exists'.1 ht
      have h1 := hmet r hr
      obtain ⟨s, hs⟩ := resolve_target h1 hn'
      rw [hs] at h1
      obtain ⟨n', t, idx, h2, h3, h4, -⟩ := (resolve_slot h1).reg
      rw [hn'] at h2; cases h2
      have h5 : (n, t) ∈ c.maps.map (fun e => (e.1, e.2.1)) :=
        List.mem_map_of_mem (f := fun e => (e.1, e.2.1)) (lookup_mem h4)
      rw [h.maps, List.mem_map] at h5
      obtain ⟨b₀, hb₀, h6⟩ := h5
      cases h6
      exact ⟨b₀, hpre ▸ hb₀, hn', h3⟩
    · rw [List.concat_eq_append, ← List.cons_append, ← List.append_assoc] at he
      exact h.dep pre b' post' (List.append_inj' he rfl).1 u hu ht

end Verif.Params
