import Verif.Lemmas.ParamRun

namespace Verif.Params

variable {V S W : Type} {done bs : List Builder} {c : Collection}

/-! ## What is known of a built collection -/

/-- The shape of references to values of a stage. -/
def Stage.shape : Stage → Shape
  | .const => .const
  | .simple => .simple
  | .before => .before
  | .after => .after

theorem slot_shape (s : Slot) : (Metric.slot s).shape = s.stage.shape := by
  obtain ⟨st, t, i⟩ := s
  cases st <;> rfl

theorem filter_name_nodup : ∀ {ops : List Op}, (∀ n, (ops.filter fun op => op.name = n).length ≤ 1) →
    (ops.map Op.name).Nodup := by
  intro ops
  induction ops with
  | nil => intro _; exact List.nodup_nil
  | cons op ops ih =>
    intro h
    rw [List.map_cons, List.nodup_cons]
    constructor
    · intro hm
      obtain ⟨p, hp, he⟩ := List.mem_map.1 hm
      have h1 := h op.name
      rw [List.filter_cons_of_pos (by simp)] at h1
      have : 0 < (ops.filter fun q => q.name = op.name).length :=
        List.length_pos_of_mem (List.mem_filter.2 ⟨hp, by simp [he]⟩)
      simp only [List.length_cons] at h1
      omega
    · refine ih fun n => ?_
      have := h n
      rw [List.filter_cons] at this
      split at this
      · simp only [List.length_cons] at this; omega
      · exact this

theorem newOps_length (c : Collection) (b : Builder) (form : Form) (rs : List Read) (st : Stage) :
    (newOps c b form rs st).length ≤ 1 := by
  rcases newOps_cases c b form rs st with h | ⟨op, h, -⟩ <;> rw [h] <;> simp

theorem Inv.opsOf_length (h : Inv done c) (st : Stage) (n : Name) : (opsOf c st n).length ≤ 1 := by
  by_cases hn : n ∈ done.map Builder.name
  · obtain ⟨b, hb, rfl⟩ := List.mem_map.1 hn
    obtain ⟨form, rs, -, -, h3⟩ := h.fix b hb
    have := congrArg List.length (h3 st)
    rw [List.length_map, List.length_map] at this
    rw [this]
    exact newOps_length ..
  · have : opsOf c st n = [] := by
      unfold opsOf
      rw [List.filter_eq_nil_iff]
      intro p hp he
      have he : p.name = n := by simpa using he
      exact hn (he ▸ h.named st p hp)
    rw [this]; simp

theorem Inv.sorted (h : Inv done c) (st : Stage) : Sorted (c.ops st) := by
  refine ⟨?_, h.outsNodup st, filter_name_nodup fun n => h.opsOf_length st n⟩
  intro pre op post he r hr s hs hm
  obtain ⟨p, h1, -, h3⟩ := h.ord st pre op post he r hr s hs
  have hm' : s ∈ Verif.Params.outs (c.ops st) := by
    rw [he]
    simp only [Verif.Params.outs, List.filterMap_append, List.mem_append] at hm ⊢
    exact Or.inr hm
  have hst := (h.outs st s hm').1
  rcases h3 with ⟨h3, -⟩ | ⟨-, h3⟩ | ⟨h3, h4, -⟩
  · rw [hst] at h3; omega
  · have hn := h.outsNodup st
    rw [he] at hn
    simp only [Verif.Params.outs, List.filterMap_append] at hn
    rw [List.nodup_append] at hn
    exact hn.2.2 s (List.mem_filterMap.2 ⟨p, h3, h1⟩) s hm rfl
  · rw [hst, h3] at h4; cases h4

/-- The writer of a slot. -/
theorem Inv.writer (h : Inv done c) {st : Stage} {p q : Op} {s : Slot} (hp : p ∈ c.ops st) (hq : q ∈ c.ops st)
    (hps : p.out = some s) (hqs : q.out = some s) : p = q := by
  have hn := h.outsNodup st
  revert hp hq hn
  generalize c.ops st = ops
  induction ops with
  | nil => intro hp; cases hp
  | cons op ops ih =>
    intro hp hq hn
    rw [outs_cons] at hn
    have htail := (List.nodup_append.1 hn).2.1
    have hnot : op.out = some s → s ∉ Verif.Params.outs ops := by
      intro ho; rw [ho] at hn; exact (List.nodup_cons.1 hn).1
    rcases List.mem_cons.1 hp with rfl | hp' <;> rcases List.mem_cons.1 hq with rfl | hq'
    · rfl
    · have hm : s ∈ Verif.Params.outs ops := List.mem_filterMap.2 ⟨q, hq', hqs⟩
      exact absurd hm (hnot hps)
    · have hm : s ∈ Verif.Params.outs ops := List.mem_filterMap.2 ⟨p, hp', hps⟩
      exact absurd hm (hnot hqs)
    · exact ih hp' hq' htail

theorem Inv.same_name (h : Inv done c) {st : Stage} {p q : Op} (hp : p ∈ c.ops st) (hq : q ∈ c.ops st)
    (he : p.name = q.name) : p = q :=
  List.inj_on_of_nodup_map (h.sorted st).names hp hq he

/-- The reference of a resolved metric leads to the parameter that writes the slot. -/
theorem Inv.leads (h : Inv done c) (hsub : ∀ b ∈ done, b ∈ bs) {u : Use} {s : Slot}
    (hr : resolve c.maps u.phase u.ref = .ok (.slot s)) :
    ∃ p ∈ c.ops s.stage, p.out = some s ∧ u.ref.target = some p.name ∧ Gives bs u s.stage.shape := by
  obtain ⟨n, t, idx, h1, h2, h3, h4⟩ := (resolve_slot hr).reg
  obtain ⟨p, hp, hps, hpn⟩ := h.reg n t idx (lookup_mem h3) s h4
  refine ⟨p, hp, hps, by rw [h1, hpn], ?_⟩
  obtain ⟨b, hb, hbn, hbt⟩ := h.of_lookup h3
  obtain ⟨idx', h5, h6⟩ := h.calculable hsub done [] (by simp) b hb
  rw [hbn, hbt, h3, Option.some_inj] at h5
  subst h5
  refine ⟨b, hsub b hb, by rw [h1, hbn], by rw [hbt]; exact h2, idx.kind, h6, ?_⟩
  have hn : (c.maps.map Prod.fst).Nodup := by rw [h.names]; exact h.nodup
  cases ho : Offers u.phase u.ref idx.kind with
  | none =>
    obtain ⟨w, -, he⟩ := (resolve_offers hn h1 h2 h3 (p := u.phase)).2 ho
    rw [he] at hr; cases hr
  | some sh =>
    obtain ⟨m, h7, h8⟩ := (resolve_offers hn h1 h2 h3 (p := u.phase)).1 sh ho
    rw [h7] at hr; cases hr
    rw [slot_shape] at h8
    rw [h8]

theorem Gives.unique (hn : (bs.map Builder.name).Nodup) {u : Use} {sh sh' : Shape} (h : Gives bs u sh)
    (h' : Gives bs u sh') : sh = sh' := by
  obtain ⟨b, hb, h1, -, k, h3, h4⟩ := h
  obtain ⟨b', hb', h1', -, k', h3', h4'⟩ := h'
  rw [h1, Option.some_inj] at h1'
  have := name_inj hn hb hb' h1'
  subst this
  rw [(h3.unique hn h3').2, h4', Option.some_inj] at h4
  exact h4.symm

theorem resolve_unaimed {maps : Maps} {p : Phase} {r : Ref} {m : Metric} (ht : r.target = none)
    (h : resolve maps p r = .ok m) :
    (r = .literal ∧ m = .literal) ∨ (r = .component ∧ m = .component) := by
  cases r <;> simp_all [Ref.target, resolve]

/-- The meaning of a list of references is what the metrics give. -/
theorem Inv.given_iff (h : Inv done c) (hsub : ∀ b ∈ done, b ∈ bs) (hn : (bs.map Builder.name).Nodup)
    (H : History V S W) (zero : V) (st : Stage) (t : Nat) (store : Slot → V) (vs : List V) :
    ∀ rs : List Read, (∀ r ∈ rs, resolve c.maps r.use.phase r.use.ref = .ok r.metric) →
      (∀ r ∈ rs, ∀ s, r.metric = .slot s → ∀ p ∈ c.ops s.stage, p.out = some s →
        store s = H.meaning zero st t p.name s.stage.shape) →
      (Given bs H zero st t (rs.map Read.use) vs ↔ vs = valuesOf store rs) := by
  intro rs
  induction rs generalizing vs with
  | nil => intro _ _; simp [Given, valuesOf]
  | cons r rs ih =>
    intro hres hst
    have ih := fun vs => ih vs (fun r hr => hres r (List.mem_cons_of_mem _ hr))
      (fun r hr => hst r (List.mem_cons_of_mem _ hr))
    have h1 := hres r (List.mem_cons_self ..)
    unfold Given at ih ⊢
    cases ht : r.use.ref.target with
    | none =>
      rw [List.map_cons, List.filter_cons_of_neg (by simp [ht])]
      have : valuesOf store (r :: rs) = valuesOf store rs := by
        rcases resolve_unaimed ht h1 with ⟨-, h2⟩ | ⟨-, h2⟩ <;> simp [valuesOf, h2]
      rw [this]
      exact ih vs
    | some m =>
      obtain ⟨s, hs⟩ := resolve_target h1 ht
      rw [hs] at h1
      obtain ⟨p, hp, hps, hpn, hg⟩ := h.leads hsub h1
      have hv := hst r (List.mem_cons_self ..) s hs p hp hps
      rw [List.map_cons, List.filter_cons_of_pos (by simp [ht])]
      have : valuesOf store (r :: rs) = store s :: valuesOf store rs := by simp [valuesOf, hs]
      rw [this, List.forall₂_cons_left_iff]
      constructor
      · rintro ⟨v, vs', ⟨m', sh, h2, h3, rfl⟩, h4, rfl⟩
        rw [(ih vs').1 h4]
        rw [hpn, Option.some_inj] at h2
        rw [← h2, h3.unique hn hg, hv]
      · rintro rfl
        exact ⟨store s, _, ⟨p.name, _, hpn, hg, hv⟩, (ih _).2 rfl, rfl⟩

end Verif.Params
