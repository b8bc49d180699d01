import Verif.Lemmas.V1Books

/-! # What the attributes of converted components mean -/

namespace Verif.V1

/-- The new network contains what the conversion has gathered so far. -/
structure Final (E : Env) (refs : List (String × Ref)) (d : Data) : Prop where
  params : ∀ c ∈ d.parameters, updateComponent refs c ∈ E.parameters
  series : d.timeseries ⊆ E.timeseries
  frames : E.frames = refs
  virt : ∀ n, d.virtualNodes.contains n = true ↔ n ∈ E.virtualNodes
  fresh : ∀ c ∈ d.parameters, ∀ r ∈ refs, r.1 ≠ c.name

theorem Final.back {E : Env} {refs : List (String × Ref)} {d d' : Data} (h : Final E refs d')
    (hm : d.parameters ⊆ d'.parameters ∧ d.timeseries ⊆ d'.timeseries ∧ d'.virtualNodes = d.virtualNodes) :
    Final E refs d :=
  ⟨fun c hc => h.params c (hm.1 hc), fun s hs => h.series (hm.2.1 hs), h.frames, fun n => by rw [← hm.2.2]; exact h.virt n,
    fun c hc => h.fresh c (hm.1 hc)⟩

/-- No timeseries has a name that this component may introduce. -/
def Fresh (d : Data) (ex : List String) (b : String) : Prop :=
  ∀ s ∈ d.timeseries, s.name ∉ ex ∧ ∀ k, d.count ≤ k → s.name ≠ madeUp (some b) k

theorem Fresh.step {d d1 : Data} {ex1 ex2 extra : List String} {b : String} (h : Fresh d (ex1 ++ ex2) b)
    (hp : Piece d d1 ex1 b extra) (hc : Clean (ex1 ++ ex2)) : Fresh d1 ex2 b := by
  obtain ⟨p, s, a1, a2, a3, a4, a5⟩ := hp
  intro t ht
  rw [a2] at ht
  rcases List.mem_append.1 ht with ht | ht
  · obtain ⟨h1, h2⟩ := h t ht
    exact ⟨fun hx => h1 (List.mem_append_right _ hx), fun k hk => h2 k (by omega)⟩
  · have hmem : t.name ∈ p.map Component.name ++ s.map Series.name ++ extra := by
      simp only [List.mem_append, List.mem_map]
      exact .inl (.inr ⟨t, ht, rfl⟩)
    rcases a5.2 _ hmem with h1 | ⟨k, h1, h2, h3⟩
    · exact ⟨fun hx => (List.nodup_append.1 hc.1).2.2 _ h1 _ hx rfl,
        fun k _ => hc.2 _ (List.mem_append_left _ h1) _ _⟩
    · refine ⟨fun hx => hc.2 _ (List.mem_append_right _ hx) _ _ h3, fun k' hk' he => ?_⟩
      rw [h3] at he
      have := (madeUp_inj _ _ _ _ he).2
      omega

theorem Fresh.sub {d : Data} {ex ex' : List String} {b : String} (h : Fresh d ex b) (hs : ex' ⊆ ex) : Fresh d ex' b :=
  fun t ht => ⟨fun hx => (h t ht).1 (hs hx), (h t ht).2⟩

/-- The update of an attribute. -/
def upd (refs : List (String × Ref)) (kept : Bool) (a : Attr) : Attr :=
  if kept || a.index then a else { a with metric := update refs a.metric }

theorem updateComponent_attrs (refs : List (String × Ref)) (c : Component) :
    (updateComponent refs c).attrs = c.attrs.map (upd refs false) := by
  simp [updateComponent, upd]

theorem update_own (refs : List (String × Ref)) (n : String) (h : ∀ r ∈ refs, r.1 ≠ n) :
    update refs (.parameter n) = .parameter n := by
  have : refs.find? (fun r => r.1 == n) = none := by
    rw [List.find?_eq_none]
    intro r hr
    simpa using h r hr
  simp [update, this]

theorem nodeMetric_means {E : Env} {refs : List (String × Ref)} {d : Data} (hF : Final E refs d) (target : String)
    (aware : Bool) (hp : (aware || !E.virtualNodes.contains target) = true) :
    nodeMetric d target aware = E.nodeRef target := by
  unfold nodeMetric Env.nodeRef
  by_cases h : target ∈ E.virtualNodes
  · have h2 := (hF.virt target).2 h
    have h3 : aware = true := by
      rcases Bool.or_eq_true _ _ ▸ hp with h4 | h4
      · exact h4
      · simp only [Bool.not_eq_true', List.contains_eq_mem, decide_eq_false_iff_not] at h4
        exact absurd h h4
    simp only [h, h3, if_true, Bool.true_and, h2]
  · have h2 : ¬ d.virtualNodes.contains target = true := fun hc => h ((hF.virt target).1 hc)
    simp only [Bool.not_eq_true] at h2
    simp only [h, h2, Bool.and_false, Bool.false_eq_true, if_false]

theorem update_nodeRef (refs : List (String × Ref)) (E : Env) (n : String) : update refs (E.nodeRef n) = E.nodeRef n := by
  unfold Env.nodeRef
  split_ifs <;> rfl

/-- The metric that leads to a definition. -/
def Definition.metric : Definition → Metric
  | .parameter c => .parameter c.name
  | .series _ r => .timeseries r

mutual

theorem convValue_means (E : Env) (refs : List (String × Ref)) (index : Bool) (v : Value) (d d' : Data) (b : String)
    (m : Metric) (kept : Bool) (hr : v.regular = true) (hc : Clean v.written) (hfr : Fresh d v.written b)
    (hpl : v.plain E.frames E.virtualNodes kept = true) (hF : Final E refs d')
    (h : convValue index v (some b) d = (.ok m, d')) : v.means E (if kept then m else update refs m) := by
  match v with
  | .constant q =>
    simp only [convValue, Prod.mk.injEq] at h
    have hm : m = .literal q := by
      obtain ⟨h1, -⟩ := h
      split_ifs at h1
      exact (Res.ok.inj h1).symm
    subst hm
    cases kept <;> rfl
  | .reference n =>
    simp only [convValue, Prod.mk.injEq, Res.ok.injEq] at h
    obtain ⟨rfl, rfl⟩ := h
    simp only [Value.means, Env.frame, hF.frames]
    cases hf : refs.find? (fun r => r.1 == n) with
    | none => cases kept <;> simp [update, hf]
    | some r =>
      cases kept with
      | false => simp [update, hf]
      | true =>
        rw [hF.frames] at hpl
        simp only [Value.plain, Bool.true_and, Bool.not_eq_true', List.any_eq_false] at hpl
        exact absurd (List.find?_some hf) (by simpa using hpl r (List.mem_of_find?_eq_some hf))
  | .table t ok =>
    simp only [convValue, Prod.mk.injEq] at h
    have hm : m = .table t := by
      obtain ⟨h1, -⟩ := h
      split_ifs at h1
      exact (Res.ok.inj h1).symm
    subst hm
    cases kept <;> rfl
  | .inline p =>
    simp only [convValue] at h
    simp only [Value.means]
    rcases hcp : convParam p (some b) d with ⟨r, d1⟩
    rw [hcp] at h
    cases r with
    | ok o =>
      cases o with
      | parameter c =>
        simp only [extract, Prod.mk.injEq, Res.ok.injEq] at h
        obtain ⟨rfl, rfl⟩ := h
        have hmem : c ∈ ({ d1 with parameters := d1.parameters ++ [c] } : Data).parameters := by simp
        have hu := update_own refs c.name (hF.fresh c hmem)
        have hback : Final E refs d1 := hF.back ⟨fun x hx => List.mem_append_left _ hx, fun _ hx => hx, rfl⟩
        have := convParam_means E refs p (some b) d d1 b _ rfl (by simpa [Value.regular] using hr)
          (by simpa [Value.written] using hc) (by simpa [Value.written] using hfr) (by simpa [Value.plain] using hpl) hback
          (fun c' hc' => by cases hc'; exact hF.params c hmem) hcp
        rw [hu, ite_self]
        exact this
      | series o s =>
        simp only [extract, Prod.mk.injEq, Res.ok.injEq] at h
        obtain ⟨rfl, rfl⟩ := h
        have := convParam_means E refs p (some b) d d1 b _ rfl (by simpa [Value.regular] using hr)
          (by simpa [Value.written] using hc) (by simpa [Value.written] using hfr) (by simpa [Value.plain] using hpl) hF
          (fun c' hc' => by cases hc') hcp
        cases kept <;> exact this
    | err p => simp [extract] at h
    | panic => simp [extract] at h

theorem convFields_means (E : Env) (refs : List (String × Ref)) (f : Fields) (name : String) (parent : Option String)
    (d d' : Data) (b : String) (as : List Attr) (kept : Bool) (hb : parent.or (some name) = some b)
    (hr : f.regular = true) (hc : Clean f.written) (hfr : Fresh d f.written b)
    (hpl : f.plain E.frames E.virtualNodes kept = true) (hF : Final E refs d')
    (h : convFields f name parent d = (.ok as, d')) : f.means E (as.map (upd refs kept)) := by
  match f with
  | .done =>
    simp only [convFields, Prod.mk.injEq, Res.ok.injEq] at h
    obtain ⟨rfl, rfl⟩ := h
    rfl
  | .value attr v rest =>
    simp only [Fields.regular, Bool.and_eq_true] at hr
    simp only [Fields.written] at hc hfr
    simp only [Fields.plain, Bool.and_eq_true] at hpl
    have hcv := hc.sublist (List.sublist_append_left _ _)
    have hcr := hc.sublist (List.sublist_append_right _ _)
    have hv := convValue_piece false v d b hr.1 hcv
    rw [convFields, hb] at h
    rcases h1 : convValue false v (some b) d with ⟨r, d1⟩
    rw [h1] at h hv
    cases r with
    | ok m =>
      simp only at h
      rcases h2 : convFields rest name parent d1 with ⟨r2, d2⟩
      rw [h2] at h
      cases r2 with
      | ok as' =>
        simp only [Prod.mk.injEq, Res.ok.injEq] at h
        obtain ⟨rfl, rfl⟩ := h
        have hback : Final E refs d1 := by
          have := convFields_kept (kept_mem d1) rest name parent d1 ⟨fun _ h => h, fun _ h => h, rfl⟩
          rw [h2] at this
          exact hF.back this
        refine ⟨if kept then m else update refs m, as'.map (upd refs kept), ?_, ?_, ?_⟩
        · cases kept <;> simp [upd]
        · exact convValue_means E refs false v d d1 b m kept hr.1 hcv (hfr.sub (List.subset_append_left _ _)) hpl.1 hback h1
        · exact convFields_means E refs rest name parent d1 d2 b as' kept hb hr.2 hcr (hfr.step hv hc) hpl.2 hF h2
      | err p => simp at h
      | panic => simp at h
    | err p => simp at h
    | panic => simp at h
  | .index attr v rest =>
    simp only [Fields.regular, Bool.and_eq_true] at hr
    simp only [Fields.written] at hc hfr
    simp only [Fields.plain, Bool.and_eq_true] at hpl
    have hcv := hc.sublist (List.sublist_append_left _ _)
    have hcr := hc.sublist (List.sublist_append_right _ _)
    have hv := convValue_piece true v d b hr.1 hcv
    rw [convFields, hb] at h
    rcases h1 : convValue true v (some b) d with ⟨r, d1⟩
    rw [h1] at h hv
    cases r with
    | ok m =>
      simp only at h
      rcases h2 : convFields rest name parent d1 with ⟨r2, d2⟩
      rw [h2] at h
      cases r2 with
      | ok as' =>
        simp only [Prod.mk.injEq, Res.ok.injEq] at h
        obtain ⟨rfl, rfl⟩ := h
        have hback : Final E refs d1 := by
          have := convFields_kept (kept_mem d1) rest name parent d1 ⟨fun _ h => h, fun _ h => h, rfl⟩
          rw [h2] at this
          exact hF.back this
        refine ⟨m, as'.map (upd refs kept), ?_, ?_, ?_⟩
        · cases kept <;> simp [upd]
        · exact convValue_means E refs true v d d1 b m true hr.1 hcv (hfr.sub (List.subset_append_left _ _)) hpl.1 hback h1
        · exact convFields_means E refs rest name parent d1 d2 b as' kept hb hr.2 hcr (hfr.step hv hc) hpl.2 hF h2
      | err p => simp at h
      | panic => simp at h
    | err p => simp at h
    | panic => simp at h
  | .node attr target aware rest =>
    simp only [Fields.regular] at hr
    simp only [Fields.written] at hc hfr
    simp only [Fields.plain, Bool.and_eq_true] at hpl
    rw [convFields] at h
    rcases h2 : convFields rest name parent d with ⟨r2, d2⟩
    rw [h2] at h
    cases r2 with
    | ok as' =>
      simp only [Prod.mk.injEq, Res.ok.injEq] at h
      obtain ⟨rfl, rfl⟩ := h
      have hback : Final E refs d := by
        have := convFields_kept (kept_mem d) rest name parent d ⟨fun _ h => h, fun _ h => h, rfl⟩
        rw [h2] at this
        exact hF.back this
      refine ⟨as'.map (upd refs kept), ?_, ?_⟩
      · rw [nodeMetric_means hback target aware hpl.1]
        cases kept <;> simp [upd, update_nodeRef]
      · exact convFields_means E refs rest name parent d d2 b as' kept hb hr hc hfr hpl.2 hF h2
    | err p => simp at h
    | panic => simp at h
  | .check attr ok why rest =>
    simp only [Fields.regular] at hr
    simp only [Fields.written] at hc hfr
    simp only [Fields.plain] at hpl
    rw [convFields] at h
    cases ok with
    | true => exact convFields_means E refs rest name parent d d' b as kept hb hr hc hfr hpl hF h
    | false => simp at h

theorem convParam_means (E : Env) (refs : List (String × Ref)) (p : Param) (parent : Option String) (d d' : Data)
    (b : String) (o : Definition) (hb : parent.or p.name = some b) (hr : p.regular = true) (hc : Clean p.written)
    (hfr : Fresh d p.written b) (hpl : p.plain E.frames E.virtualNodes = true) (hF : Final E refs d')
    (hE : ∀ c, o = .parameter c → updateComponent refs c ∈ E.parameters)
    (h : convParam p parent d = (.ok o, d')) : p.means E o.metric := by
  match p with
  | .core ty md f =>
    obtain ⟨name, d1, as, h1, h2, rfl⟩ := convParam_core _ _ _ _ _ _ _ h
    simp only [Param.regular, Bool.and_eq_true, bne_iff_ne, ne_eq] at hr
    simp only [Param.written] at hc hfr
    simp only [Param.plain] at hpl
    obtain ⟨hm, -, -, hn⟩ := convMeta_piece md parent d b hb hr.1
    rw [h1] at hm hn
    refine ⟨_, hE _ rfl, rfl, rfl, ?_, ?_⟩
    · cases md with
      | missing => trivial
      | given n tags =>
        cases n with
        | none => trivial
        | some n => exact convMeta_name _ _ _ _ _ h1 n rfl
    · rw [updateComponent_attrs]
      exact convFields_means E refs f name parent d1 d' b as false (hn name rfl) hr.2
        (hc.sublist (List.sublist_append_right _ _)) (hfr.step hm hc) hpl hF h2
  | .controlCurve md storage curves given values =>
    obtain ⟨name, d1, cs, d2, h1, h2, h3⟩ := convParam_curve _ _ _ _ _ _ _ _ _ h
    simp only [Param.regular, Bool.and_eq_true, bne_iff_ne, ne_eq, Bool.or_eq_true, List.isEmpty_iff, beq_iff_eq] at hr
    obtain ⟨⟨⟨hmd, hrc⟩, hrv⟩, honce⟩ := hr
    simp only [Param.written] at hc hfr
    simp only [Param.plain, Bool.and_eq_true] at hpl
    have hc2 := hc.sublist (List.sublist_append_right _ _)
    have hcc := hc2.sublist (List.sublist_append_left _ _)
    have hcv := hc2.sublist (List.sublist_append_right _ _)
    obtain ⟨hm, -, -, hn⟩ := convMeta_piece md parent d b hb hmd
    rw [h1] at hm hn
    have hfr1 := hfr.step hm hc
    have hpc := convFields_piece curves name parent d1 b (hn name rfl) hrc hcc
    rw [h2] at hpc
    have keeps : ∀ nm da db, convMeta md parent da = (.ok nm, db) → md.keeps nm := by
      intro nm da db hh
      cases md with
      | missing => trivial
      | given n tags =>
        cases n with
        | none => trivial
        | some n => exact convMeta_name _ _ _ _ _ hh n rfl
    rcases h3 with ⟨rfl, vs, h3, rfl⟩ | ⟨rfl, name', d3, cs', h3, h4, rfl⟩
    · have hback : Final E refs d2 := by
        have := convFields_kept (kept_mem d2) values name parent d2 ⟨fun _ h => h, fun _ h => h, rfl⟩
        rw [h3] at this
        exact hF.back this
      refine ⟨_, hE _ rfl, rfl, keeps _ _ _ h1, rfl, cs.map (upd refs false), vs.map (upd refs false), ?_, ?_, ?_⟩
      · rw [updateComponent_attrs, nodeMetric_means hF storage true rfl]
        simp [upd, update_nodeRef]
      · exact convFields_means E refs curves name parent d1 d2 b cs false (hn name rfl) hrc hcc
          (hfr1.sub (List.subset_append_left _ _)) hpl.1.1 hback h2
      · exact convFields_means E refs values name parent d2 d' b vs false (hn name rfl) hrv hcv
          (hfr1.step hpc hc2) hpl.1.2 hF h3
    · have hw : curves.written = [] := by
        rcases honce with h | h
        · exact h
        · exact absurd h.1.1 (by simp)
      obtain ⟨hm', -, -, hn'⟩ := convMeta_piece md parent d2 b hb hmd
      rw [h3] at hm' hn'
      -- the names of the first attempt are made up, and those of the second differ
      have hq := convMeta_quiet md parent d b
      rw [h1] at hq
      rw [hw] at hpc
      have hall : Piece d d2 [] b [] := hq.append hpc ⟨List.nodup_nil, fun n hn => by cases hn⟩
      have hfr2 : Fresh d2 (md.name.toList ++ (curves.written ++ values.written)) b :=
        Fresh.step (ex1 := []) hfr hall hc
      refine ⟨_, hE _ rfl, rfl, keeps _ _ _ h3, rfl, cs'.map (upd refs false), [], ?_, ?_, rfl⟩
      · have : (false || !E.virtualNodes.contains storage) = true := by simpa using hpl.2
        rw [updateComponent_attrs, nodeMetric_means hF storage false this]
        simp [upd, update_nodeRef]
      · exact convFields_means E refs curves name' parent d3 d' b cs' false (hn' name' rfl) hrc hcc
          ((hfr2.step hm' hc).sub (List.subset_append_left _ _)) hpl.1.1 hF h4
  | .dataFrame md url table column scenario =>
    obtain ⟨name, d1, h1, h2⟩ := convParam_frame _ _ _ _ _ _ _ _ _ h
    simp only [Param.regular, bne_iff_ne, ne_eq] at hr
    simp only [Param.written] at hc hfr
    obtain ⟨hm, -, hts, hn⟩ := convMeta_piece md parent d b hb hr
    rw [h1] at hm hts
    obtain ⟨-, h3⟩ := convDataFrame_ok _ _ _ _ _ _ _ _ h2
    refine ⟨name, ?_, ?_⟩
    · cases md with
      | missing => trivial
      | given n tags =>
        cases n with
        | none => trivial
        | some n => exact convMeta_name _ _ _ _ _ h1 n rfl
    · rcases h3 with ⟨u, rfl, rfl, h4⟩ | ⟨rfl, t, rfl, rfl, h4⟩
      · have hnew : ¬ d1.timeseries.any (fun s => s.name == name) = true := by
          intro ha
          rw [List.any_eq_true] at ha
          obtain ⟨s, hs, hs2⟩ := ha
          simp only [beq_iff_eq] at hs2
          simp only at hts
          rw [hts] at hs
          obtain ⟨f1, f2⟩ := hfr s hs
          obtain ⟨p, q, -, -, -, -, a5⟩ := hm
          rcases a5.2 name (by simp) with h5 | ⟨k, h5, -, h6⟩
          · exact f1 (by rw [hs2]; exact h5)
          · exact f2 k h5 (by rw [hs2]; exact h6)
        rw [if_neg hnew] at h4
        exact ⟨hF.series (by rw [h4]; simp), rfl⟩
      · rfl
  | .refused n why => simp [convParam] at h
  | .unimplemented => simp [convParam] at h

end

theorem splits_eq (qs : List ℚ) (slots : List String) : splits qs slots = splitAttrs qs slots := by
  cases qs with
  | nil => rfl
  | cons q qs =>
    cases slots with
    | nil => simp [splits, splitAttrs]
    | cons s slots =>
      simp only [splits, splitAttrs, proportions, List.drop_succ_cons, List.drop_zero, List.tail_cons, List.sum_cons]
      rw [add_comm q, List.zip_map_left, List.map_map, List.zip_eq_zipWith, List.map_zipWith]
      rfl

theorem splitAttrs_update (refs : List (String × Ref)) (qs : List ℚ) (slots : List String) :
    (splitAttrs qs slots).map (upd refs false) = splitAttrs qs slots := by
  unfold splitAttrs
  rw [List.map_zipWith]
  rfl

theorem convNode_means (E : Env) (refs : List (String × Ref)) (n : Node) (d d' : Data) (v : Bool) (c : Component)
    (hr : n.fields.regular = true) (hq : n.factors.all Value.isConstant = true) (hc : Clean n.fields.written)
    (hfr : Fresh d n.fields.written n.name) (hpl : n.fields.plain E.frames E.virtualNodes n.isVirtual = true)
    (hF : Final E refs d') (h : convNode n d = (.ok (v, c), d')) :
    n.becomes E (if v then c else updateComponent refs c) := by
  have hsh := (convNode_as n d).2 v c (by rw [h])
  obtain ⟨rfl, hty, hnm⟩ := hsh
  refine ⟨by rw [← hty]; cases n.isVirtual <;> rfl, by rw [← hnm]; cases n.isVirtual <;> rfl, ?_⟩
  cases n with
  | core isVirtual ty name tags f =>
    rw [convNode] at h
    cases tags with
    | false => simp at h
    | true =>
      simp only [if_true] at h
      rcases h2 : convFields f name none d with ⟨r2, d2⟩
      rw [h2] at h
      cases r2 with
      | ok as =>
        simp only [Prod.mk.injEq, Res.ok.injEq] at h
        obtain ⟨⟨-, rfl⟩, rfl⟩ := h
        have := convFields_means E refs f name none d d2 name as isVirtual rfl hr hc hfr hpl hF h2
        cases isVirtual with
        | true =>
          have hid : as.map (upd refs true) = as := by
            have : upd refs true = id := by funext a; simp [upd]
            rw [this, List.map_id]
          rw [hid] at this
          exact this
        | false =>
          simp only [Node.isVirtual, Bool.false_eq_true, if_false, updateComponent_attrs]
          exact this
      | err p => simp at h
      | panic => simp at h
  | riverSplit name tags f factors slots =>
    rw [convNode] at h
    cases tags with
    | false => simp at h
    | true =>
      simp only [if_true] at h
      rcases h2 : convFields f name none d with ⟨r2, d2⟩
      rw [h2] at h
      cases r2 with
      | ok as =>
        simp only at h
        rw [convFactors_const factors d2 hq] at h
        simp only [Prod.mk.injEq, Res.ok.injEq] at h
        obtain ⟨⟨-, rfl⟩, rfl⟩ := h
        have := convFields_means E refs f name none d d2 name as false rfl hr hc hfr hpl hF h2
        refine ⟨as.map (upd refs false), ?_, this⟩
        simp only [Node.isVirtual, Bool.false_eq_true, if_false, updateComponent_attrs, List.map_append, splits_eq,
          splitAttrs_update]
      | err p => simp at h
      | panic => simp at h
  | custom n => simp [convNode] at h
  | unimplemented n => simp [convNode] at h

theorem convNodes_means (E : Env) (refs : List (String × Ref)) (ns : List Node) (acc acc' : Nodes) (d d' : Data)
    (ws bs : List String) (hg : GoodNodes ws bs ns) (hb : Books ws bs d.names)
    (hpl : ∀ n ∈ ns, n.fields.plain E.frames E.virtualNodes n.isVirtual = true) (hF : Final E refs d')
    (hc : convNodes ns acc d = some (acc', d')) :
    (∃ cs, acc'.nodes = acc.nodes ++ cs ∧
      List.Forall₂ (Node.becomes E) (ns.filter fun n => n.verdict == .fine && !n.isVirtual)
        (cs.map (updateComponent refs))) ∧
    ∃ cs, acc'.virtualNodes = acc.virtualNodes ++ cs ∧
      List.Forall₂ (Node.becomes E) (ns.filter fun n => n.verdict == .fine && n.isVirtual) cs := by
  induction ns generalizing acc d ws bs with
  | nil =>
    simp only [convNodes, Option.some.injEq, Prod.mk.injEq] at hc
    obtain ⟨rfl, -⟩ := hc
    exact ⟨⟨[], by simp, .nil⟩, ⟨[], by simp, .nil⟩⟩
  | cons n ns ih =>
    have hbn := convNode_books n ns d ws bs hg hb
    obtain ⟨hcl, hnb, hg'⟩ := hg.head
    obtain ⟨hr1, hr2⟩ := hg.regular n (List.mem_cons_self ..)
    have hpl' : ∀ m ∈ ns, m.fields.plain E.frames E.virtualNodes m.isVirtual = true :=
      fun m hm => hpl m (List.mem_cons_of_mem _ hm)
    obtain ⟨hn, hsh⟩ := convNode_as n { d with count := 0 }
    rw [convNodes] at hc
    rcases hr : convNode n { d with count := 0 } with ⟨r, d1⟩
    rw [hr] at hbn hc hn hsh
    cases r with
    | ok bc =>
      obtain ⟨v, c⟩ := bc
      have hfine : n.verdict = .fine := by
        cases hv : n.verdict with
        | fine => rfl
        | wrong a c => rw [hv] at hn; obtain ⟨m, -, hm⟩ := hn; cases hm
        | stops => rw [hv] at hn; cases hn
      have hfresh : Fresh { d with count := 0 } n.fields.written n.name := by
        intro s hs
        have := hb.fresh hcl hnb (n := s.name) (List.mem_append_right _ (List.mem_map_of_mem hs))
        exact ⟨this.1, fun k _ => this.2 k⟩
      have key : ∀ acc, convNodes ns acc d1 = some (acc', d') →
          n.becomes E (if v then c else updateComponent refs c) := by
        intro acc h
        exact convNode_means E refs n { d with count := 0 } d1 v c hr1 hr2 (hcl.sublist (List.sublist_append_right _ _))
          hfresh (hpl n (List.mem_cons_self ..)) (hF.back (convNodes_mem ns _ _ _ _ h)) hr
      obtain ⟨hv, -, -⟩ := hsh v c rfl
      cases v with
      | false =>
        have hbe := key _ hc
        obtain ⟨⟨cs, i1, i2⟩, ⟨vs, i3, i4⟩⟩ := ih _ _ _ _ hg' hbn hpl' hc
        refine ⟨⟨c :: cs, by rw [i1]; simp, ?_⟩, ⟨vs, i3, ?_⟩⟩
        · rw [List.filter_cons_of_pos (by simp [hfine, ← hv]), List.map_cons]
          exact .cons hbe i2
        · rw [List.filter_cons_of_neg (by simp [← hv])]
          exact i4
      | true =>
        have hbe := key _ hc
        obtain ⟨⟨cs, i1, i2⟩, ⟨vs, i3, i4⟩⟩ := ih _ _ _ _ hg' hbn hpl' hc
        refine ⟨⟨cs, i1, ?_⟩, ⟨c :: vs, by rw [i3]; simp, ?_⟩⟩
        · rw [List.filter_cons_of_neg (by simp [← hv])]
          exact i2
        · rw [List.filter_cons_of_pos (by simp [hfine, ← hv])]
          exact .cons hbe i4
    | err p =>
      have hbad : n.verdict ≠ .fine := by
        intro hv
        rw [hv] at hn
        obtain ⟨m, hm⟩ := hn
        cases hm
      obtain ⟨⟨cs, i1, i2⟩, ⟨vs, i3, i4⟩⟩ := ih _ _ _ _ hg' hbn hpl' hc
      refine ⟨⟨cs, i1, ?_⟩, ⟨vs, i3, ?_⟩⟩
      · rw [List.filter_cons_of_neg (by simp [hbad])]
        exact i2
      · rw [List.filter_cons_of_neg (by simp [hbad])]
        exact i4
    | panic => simp at hc

theorem convParams_acc (ps : List Param) (acc acc' : Params) (d d' : Data) (hc : convParams ps acc d = some (acc', d')) :
    acc.parameters ⊆ acc'.parameters := by
  obtain ⟨⟨cs, h, -⟩, -, -⟩ := convParams_some ps acc acc' d d' hc
  rw [h]
  exact List.subset_append_left _ _

theorem convParams_means (E : Env) (refs : List (String × Ref)) (ps : List Param) (acc acc' : Params) (d d' : Data)
    (ws bs : List String) (hg : GoodParams ws bs ps) (h1 : Books ws bs (names1 acc d)) (h2 : Books ws bs (names2 acc d))
    (hpl : ∀ p ∈ ps, p.plain E.frames E.virtualNodes = true) (hF : Final E refs d')
    (hE : ∀ c ∈ acc'.parameters, updateComponent refs c ∈ E.parameters)
    (hc : convParams ps acc d = some (acc', d')) :
    ∀ p ∈ ps, p.verdict = .fine → ∀ x, p.name = some x →
      p.means E (match p.frame with | some r => .timeseries r.2 | none => .parameter x) := by
  induction ps generalizing acc d ws bs with
  | nil => intro p hp; cases hp
  | cons p ps ih =>
    obtain ⟨b, hb, hcl, hnb, hg'⟩ := hg.head
    obtain ⟨i1, i2⟩ := convParam_books p ps acc d ws bs b hb hg h1 h2
    have hc' := convParams_cons p ps acc acc' d d' hc
    intro q hq hfine x hx
    rcases List.mem_cons.1 hq with rfl | hq
    · rw [hb] at hx
      cases hx
      have hfresh : Fresh d q.written b := by
        intro s hs
        have := h1.fresh hcl hnb (n := s.name)
          (List.mem_append_right _ (List.mem_append_right _ (List.mem_map_of_mem hs)))
        exact ⟨this.1, fun k _ => this.2 k⟩
      have hn := convParam_as q none d
      rw [hfine] at hn
      obtain ⟨o, ho⟩ := hn
      rcases hr : convParam q none d with ⟨r, d1⟩
      rw [hr] at ho hc'
      simp only at ho
      subst ho
      have hm := convParam_means E refs q none d d1 b o (by rw [hb]; rfl) (hg.regular q (List.mem_cons_self ..))
        (hcl.sublist (List.sublist_append_right _ _)) hfresh (hpl q (List.mem_cons_self ..))
        (hF.back (convParams_mem ps _ _ _ _ hc')) (by
          intro c hoc
          subst hoc
          exact hE c (convParams_acc ps _ _ _ _ hc' (by simp [Params.add]))) hr
      obtain ⟨k1, k2⟩ := convParam_ok q none d d1 o hr
      cases o with
      | parameter c =>
        obtain ⟨k3, -, k4⟩ := k1 c rfl
        have hfr : q.frame = none := by
          cases q <;> first | rfl | cases k3
        rw [hfr]
        have := k4 b hb
        rw [← this]
        exact hm
      | series n r =>
        obtain ⟨-, k3⟩ := k2 n r rfl
        rw [(k3 b hb).1]
        exact hm
    · exact ih _ _ _ _ hg' i1 i2 (fun m hm => hpl m (List.mem_cons_of_mem _ hm)) hc' q hq hfine x hx

end Verif.V1
