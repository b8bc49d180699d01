import Verif.Lemmas.V1Verdict

/-! # The loops over nodes, edges and parameters -/

namespace Verif.V1

theorem extract_not_literal (r : Res Definition × Data) (q : ℚ) : (extract r).1 ≠ .ok (.literal q) := by
  obtain ⟨r, d⟩ := r
  cases r with
  | ok a => cases a <;> simp [extract]
  | err p => simp [extract]
  | panic => simp [extract]

theorem convFactors_as (vs : List Value) (d : Data) : (convFactors vs d).1.asValue (factorsVerdict vs) := by
  induction vs generalizing d with
  | nil => exact ⟨[], rfl⟩
  | cons v vs ih =>
    have hv := convValue_as false v none d
    have lit : ∀ q, v.isConstant = false → (convValue false v none d).1 ≠ .ok (.literal q) := by
      intro q hc
      cases v with
      | constant q => cases hc
      | reference n => simp [convValue]
      | table t ok => cases ok <;> simp [convValue]
      | inline p => simp only [convValue]; exact extract_not_literal _ q
    rw [convFactors]
    cases hc : v.isConstant with
    | true =>
      cases v with
      | constant q =>
        have h1 : convValue false (.constant q) none d = (.ok (.literal q), d) := by simp [convValue]
        rw [h1]
        simp only [factorsVerdict]
        have ih := ih d
        rcases hr : convFactors vs d with ⟨r, d1⟩
        rw [hr] at ih
        cases hf : factorsVerdict vs with
        | fine =>
          rw [hf] at ih
          obtain ⟨a, ha⟩ := ih
          simp only at ha
          subst ha
          exact ⟨_, rfl⟩
        | wrong a c =>
          rw [hf] at ih
          obtain ⟨p, hp, ha⟩ := ih
          simp only at ha
          subst ha
          exact ⟨p, hp, rfl⟩
        | stops =>
          rw [hf] at ih
          have ih : r = .panic := ih
          subst ih
          rfl
      | reference n => cases hc
      | table t ok => cases hc
      | inline p => cases hc
    | false =>
      have lit := fun q => lit q hc
      have hfv : factorsVerdict (v :: vs) = (v.verdict false).and (.wrong "" .nonConstantValue) := by
        cases v with
        | constant q => cases hc
        | _ => rfl
      rw [hfv]
      rcases hr : convValue false v none d with ⟨r, d1⟩
      rw [hr] at hv lit
      cases hf : v.verdict false with
      | fine =>
        rw [hf] at hv
        obtain ⟨m, hm⟩ := hv
        simp only at hm
        subst hm
        cases m with
        | literal q => exact absurd rfl (lit q)
        | _ => exact ⟨_, rfl, rfl⟩
      | wrong a c =>
        rw [hf] at hv
        obtain ⟨p, hp, ha⟩ := hv
        simp only at ha
        subst ha
        exact ⟨p, hp, rfl⟩
      | stops =>
        rw [hf] at hv
        have hv : r = .panic := hv
        subst hv
        rfl

theorem convNode_as (n : Node) (d : Data) :
    (convNode n d).1.as (· = n.name) n.verdict ∧
      ∀ b c, (convNode n d).1 = .ok (b, c) → b = n.isVirtual ∧ c.ty = n.ty ∧ c.name = n.name := by
  cases n with
  | core isVirtual ty name tags f =>
    simp only [convNode, Node.verdict, Node.name, Node.isVirtual, Node.ty]
    cases tags with
    | false => exact ⟨⟨name, rfl, rfl⟩, fun b c h => by simp at h⟩
    | true =>
      have hf := convFields_as f name none d
      simp only [Meta.verdict, Verdict.and, if_true]
      rcases hr : convFields f name none d with ⟨r, d1⟩
      rw [hr] at hf
      cases hv : f.verdict with
      | fine =>
        rw [hv] at hf
        obtain ⟨as, has⟩ := hf
        simp only at has
        subst has
        refine ⟨⟨_, rfl⟩, fun b c h => ?_⟩
        simp only [Res.ok.injEq, Prod.mk.injEq] at h
        obtain ⟨rfl, rfl⟩ := h
        exact ⟨rfl, rfl, rfl⟩
      | wrong a c =>
        rw [hv] at hf
        obtain ⟨n, hn, ha⟩ := hf
        simp only at ha
        subst ha
        exact ⟨⟨n, hn, rfl⟩, fun b c h => by simp at h⟩
      | stops =>
        rw [hv] at hf
        have hf : r = .panic := hf
        subst hf
        exact ⟨rfl, fun b c h => by simp at h⟩
  | riverSplit name tags f factors slots =>
    simp only [convNode, Node.verdict, Node.name, Node.isVirtual, Node.ty]
    cases tags with
    | false => exact ⟨⟨name, rfl, rfl⟩, fun b c h => by simp at h⟩
    | true =>
      have hf := convFields_as f name none d
      simp only [Meta.verdict, Verdict.and, if_true]
      rcases hr : convFields f name none d with ⟨r, d1⟩
      rw [hr] at hf
      cases hv : f.verdict with
      | fine =>
        rw [hv] at hf
        obtain ⟨as, has⟩ := hf
        simp only at has
        subst has
        simp only [Verdict.and]
        have hq := convFactors_as factors d1
        rcases hr2 : convFactors factors d1 with ⟨r2, d2⟩
        rw [hr2] at hq
        cases hv2 : factorsVerdict factors with
        | fine =>
          rw [hv2] at hq
          obtain ⟨qs, hqs⟩ := hq
          simp only at hqs
          subst hqs
          refine ⟨⟨_, rfl⟩, fun b c h => ?_⟩
          simp only [Res.ok.injEq, Prod.mk.injEq] at h
          obtain ⟨rfl, rfl⟩ := h
          exact ⟨rfl, rfl, rfl⟩
        | wrong a c =>
          rw [hv2] at hq
          obtain ⟨p, hp, ha⟩ := hq
          simp only at ha
          subst ha
          exact ⟨⟨name, rfl, by simp [hp]⟩, fun b c h => by simp at h⟩
        | stops =>
          rw [hv2] at hq
          have hq : r2 = .panic := hq
          subst hq
          exact ⟨rfl, fun b c h => by simp at h⟩
      | wrong a c =>
        rw [hv] at hf
        obtain ⟨n, hn, ha⟩ := hf
        simp only at ha
        subst ha
        exact ⟨⟨n, hn, rfl⟩, fun b c h => by simp at h⟩
      | stops =>
        rw [hv] at hf
        have hf : r = .panic := hf
        subst hf
        exact ⟨rfl, fun b c h => by simp at h⟩
  | custom name => exact ⟨⟨name, rfl, rfl⟩, fun b c h => by simp [convNode] at h⟩
  | unimplemented name => exact ⟨rfl, fun b c h => by simp [convNode] at h⟩

/-- The loop over nodes ends early only at a node that stops it. -/
theorem convNodes_none (ns : List Node) (acc : Nodes) (d : Data) :
    convNodes ns acc d = none ↔ ∃ n ∈ ns, n.verdict = .stops := by
  induction ns generalizing acc d with
  | nil => simp [convNodes]
  | cons n ns ih =>
    obtain ⟨hn, -⟩ := convNode_as n { d with count := 0 }
    rw [convNodes]
    rcases hr : convNode n { d with count := 0 } with ⟨r, d1⟩
    rw [hr] at hn
    cases hv : n.verdict with
    | fine =>
      rw [hv] at hn
      obtain ⟨⟨b, c⟩, hc⟩ := hn
      simp only at hc
      subst hc
      cases b <;> simp [ih, hv]
    | wrong a c =>
      rw [hv] at hn
      obtain ⟨m, hm, hc⟩ := hn
      simp only at hc
      subst hc
      simp [ih, hv]
    | stops =>
      rw [hv] at hn
      have hn : r = .panic := hn
      subst hn
      simp [hv]

/-- What the loop over nodes collects. -/
theorem convNodes_some (ns : List Node) (acc acc' : Nodes) (d d' : Data) (h : convNodes ns acc d = some (acc', d')) :
    (acc'.nodes.map fun c => (c.ty, c.name)) = (acc.nodes.map fun c => (c.ty, c.name)) ++
      (ns.filter fun n => n.verdict == .fine && !n.isVirtual).map (fun n => (n.ty, n.name)) ∧
    (acc'.virtualNodes.map fun c => (c.ty, c.name)) = (acc.virtualNodes.map fun c => (c.ty, c.name)) ++
      (ns.filter fun n => n.verdict == .fine && n.isVirtual).map (fun n => (n.ty, n.name)) ∧
    acc'.errors.map .component = acc.errors.map .component ++ ns.filterMap Node.report := by
  induction ns generalizing acc d with
  | nil =>
    simp only [convNodes, Option.some.injEq, Prod.mk.injEq] at h
    obtain ⟨rfl, -⟩ := h
    simp
  | cons n ns ih =>
    obtain ⟨hn, hb⟩ := convNode_as n { d with count := 0 }
    rw [convNodes] at h
    rcases hr : convNode n { d with count := 0 } with ⟨r, d1⟩
    rw [hr] at hn hb h
    cases hv : n.verdict with
    | fine =>
      rw [hv] at hn
      obtain ⟨⟨b, c⟩, hc⟩ := hn
      simp only at hc
      subst hc
      obtain ⟨h1, h2, h3⟩ := hb b c rfl
      subst h1
      cases hvirt : n.isVirtual with
      | false =>
        rw [hvirt] at h
        obtain ⟨i1, i2, i3⟩ := ih _ _ h
        refine ⟨?_, ?_, ?_⟩
        · rw [i1]; simp [hv, hvirt, h2, h3]
        · rw [i2]; simp [hvirt]
        · rw [i3]; simp [Node.report, hv]
      | true =>
        rw [hvirt] at h
        obtain ⟨i1, i2, i3⟩ := ih _ _ h
        refine ⟨?_, ?_, ?_⟩
        · rw [i1]; simp [hvirt]
        · rw [i2]; simp [hv, hvirt, h2, h3]
        · rw [i3]; simp [Node.report, hv]
    | wrong a c =>
      rw [hv] at hn
      obtain ⟨m, hm, hc⟩ := hn
      simp only at hc
      subst hc
      subst hm
      obtain ⟨i1, i2, i3⟩ := ih _ _ h
      refine ⟨?_, ?_, ?_⟩
      · rw [i1]; simp [hv]
      · rw [i2]; simp [hv]
      · rw [i3]; simp [Node.report, hv]
    | stops =>
      rw [hv] at hn
      have hn : r = .panic := hn
      subst hn
      simp at h

theorem convSlot_some (s : String) (t : Slot) : convSlot s = some t ↔ t.text = s := by
  unfold convSlot
  constructor
  · intro h
    split_ifs at h <;> simp_all [Slot.text] <;> subst h <;> rfl
  · intro h
    subst h
    cases t <;> simp [Slot.text]

theorem convSlot_none (s : String) :
    convSlot s = none ↔ ([Slot.abstraction, .river, .storage, .spill, .compensation].any fun t => t.text == s) = false := by
  constructor
  · intro h
    rw [List.any_eq_false]
    intro t _ ht
    rw [(convSlot_some s t).2 (by simpa using ht)] at h
    cases h
  · intro h
    rw [List.any_eq_false] at h
    cases hc : convSlot s with
    | none => rfl
    | some t => exact absurd (by simpa using (convSlot_some s t).1 hc) (h t (by cases t <;> simp))

theorem convEdge_some (e : Edge) (e' : NewEdge) (h : convEdge e = some e') : e'.old = e ∧ e.known = true := by
  obtain ⟨f, t, fs, ts⟩ := e
  have key : ∀ s x, convSlot s = some x → ([Slot.abstraction, .river, .storage, .spill, .compensation].any fun t => t.text == s) = true := by
    intro s x hx
    cases hc : ([Slot.abstraction, .river, .storage, .spill, .compensation].any fun t => t.text == s) with
    | true => rfl
    | false => rw [(convSlot_none s).2 hc] at hx; cases hx
  unfold convEdge at h
  cases fs with
  | none =>
    cases ts with
    | none =>
      simp at h
      subst h
      exact ⟨rfl, rfl⟩
    | some s =>
      cases hs : convSlot s with
      | none => simp [hs] at h
      | some x =>
        simp [hs] at h
        subst h
        exact ⟨by simp [NewEdge.old, (convSlot_some s x).1 hs], by simp only [Edge.known, Option.all_none, Option.all_some, key s x hs, Bool.and_self]⟩
  | some s =>
    cases hs : convSlot s with
    | none => simp [hs] at h
    | some x =>
      cases ts with
      | none =>
        simp [hs] at h
        subst h
        exact ⟨by simp [NewEdge.old, (convSlot_some s x).1 hs], by simp only [Edge.known, Option.all_none, Option.all_some, key s x hs, Bool.and_self]⟩
      | some s2 =>
        cases hs2 : convSlot s2 with
        | none => simp [hs, hs2] at h
        | some y =>
          simp [hs, hs2] at h
          subst h
          exact ⟨by simp [NewEdge.old, (convSlot_some s x).1 hs, (convSlot_some s2 y).1 hs2],
            by simp only [Edge.known, Option.all_some, key s x hs, key s2 y hs2, Bool.and_self]⟩

theorem convEdge_none (e : Edge) (h : convEdge e = none) : e.known = false := by
  obtain ⟨f, t, fs, ts⟩ := e
  unfold convEdge at h
  cases fs with
  | none =>
    cases ts with
    | none => simp at h
    | some s =>
      cases hs : convSlot s with
      | none => simp only [Edge.known, Option.all_none, Option.all_some, (convSlot_none s).1 hs, Bool.and_false]
      | some x => simp [hs] at h
  | some s =>
    cases hs : convSlot s with
    | none => simp only [Edge.known, Option.all_some, (convSlot_none s).1 hs, Bool.false_and]
    | some x =>
      cases ts with
      | none => simp [hs] at h
      | some s2 =>
        cases hs2 : convSlot s2 with
        | none => simp only [Edge.known, Option.all_some, (convSlot_none s2).1 hs2, Bool.and_false]
        | some y => simp [hs, hs2] at h

theorem convEdges_eq (es : List Edge) :
    (convEdges es).1.map NewEdge.old = es.filter Edge.known ∧
      (convEdges es).2 = (es.filter fun e => !e.known).map fun e => (e.fromNode, e.toNode) := by
  induction es with
  | nil => exact ⟨rfl, rfl⟩
  | cons e es ih =>
    rw [convEdges]
    cases h : convEdge e with
    | some e' =>
      obtain ⟨h1, h2⟩ := convEdge_some e e' h
      simp [h1, h2, ih]
    | none =>
      have h2 := convEdge_none e h
      simp [h2, ih]

theorem convParam_core (ty : String) (md : Meta) (f : Fields) (parent : Option String) (d d' : Data) (o : Definition)
    (h : convParam (.core ty md f) parent d = (.ok o, d')) :
    ∃ name d1 as, convMeta md parent d = (.ok name, d1) ∧ convFields f name parent d1 = (.ok as, d') ∧
      o = .parameter ⟨ty, name, as⟩ := by
  rw [convParam] at h
  rcases hr : convMeta md parent d with ⟨r, d1⟩
  rw [hr] at h
  cases r with
  | ok name =>
    simp only at h
    rcases hr2 : convFields f name parent d1 with ⟨r2, d2⟩
    rw [hr2] at h
    cases r2 with
    | ok as =>
      simp only [Prod.mk.injEq, Res.ok.injEq] at h
      exact ⟨name, d1, as, rfl, by rw [hr2, h.2], h.1.symm⟩
    | err p => simp at h
    | panic => simp at h
  | err p => simp at h
  | panic => simp at h

theorem convParam_frame (md : Meta) (url table column scenario : Option String) (parent : Option String) (d d' : Data)
    (o : Definition) (h : convParam (.dataFrame md url table column scenario) parent d = (.ok o, d')) :
    ∃ name d1, convMeta md parent d = (.ok name, d1) ∧
      convDataFrame name url table column scenario d1 = (.ok o, d') := by
  rw [convParam] at h
  rcases hr : convMeta md parent d with ⟨r, d1⟩
  rw [hr] at h
  cases r with
  | ok name => exact ⟨name, d1, rfl, h⟩
  | err p => simp at h
  | panic => simp at h

theorem convParam_curve (md : Meta) (storage : String) (curves : Fields) (given : Bool) (values : Fields)
    (parent : Option String) (d d' : Data) (o : Definition)
    (h : convParam (.controlCurve md storage curves given values) parent d = (.ok o, d')) :
    ∃ name d1 cs d2, convMeta md parent d = (.ok name, d1) ∧ convFields curves name parent d1 = (.ok cs, d2) ∧
      ((given = true ∧ ∃ vs, convFields values name parent d2 = (.ok vs, d') ∧
        o = .parameter ⟨"ControlCurve", name, cs ++ vs ++ [⟨"storage_node", false, nodeMetric d' storage true⟩]⟩) ∨
      (given = false ∧ ∃ name' d3 cs', convMeta md parent d2 = (.ok name', d3) ∧
        convFields curves name' parent d3 = (.ok cs', d') ∧
        o = .parameter ⟨"ControlCurveIndex", name', cs' ++ [⟨"storage_node", false, nodeMetric d' storage false⟩]⟩)) := by
  have hv := convParam_as (.controlCurve md storage curves given values) parent d
  rw [h] at hv
  have fine : (Param.controlCurve md storage curves given values).verdict = .fine := by
    cases hw : (Param.controlCurve md storage curves given values).verdict with
    | fine => rfl
    | wrong a c => rw [hw] at hv; obtain ⟨n, -, hn⟩ := hv; simp at hn
    | stops => rw [hw] at hv; simp [Res.as] at hv
  simp only [Param.verdict] at fine
  have hmd : md.verdict = .fine := by
    cases hw : md.verdict with
    | fine => rfl
    | _ => rw [hw] at fine; simp [Verdict.and] at fine
  rw [hmd] at fine
  have hcv : curves.verdict = .fine := by
    cases hw : curves.verdict with
    | fine => rfl
    | _ => rw [hw] at fine; simp [Verdict.and] at fine
  rw [hcv] at fine
  simp only [Verdict.and] at fine
  have okm : ∀ d, ∃ name d1, convMeta md parent d = (.ok name, d1) := by
    intro d
    have := (convMeta_as md parent d).1
    rw [hmd] at this
    obtain ⟨n, hn⟩ := this
    exact ⟨n, (convMeta md parent d).2, by rw [← hn]⟩
  have okc : ∀ name d, ∃ cs d1, convFields curves name parent d = (.ok cs, d1) := by
    intro name d
    have := convFields_as curves name parent d
    rw [hcv] at this
    obtain ⟨n, hn⟩ := this
    exact ⟨n, (convFields curves name parent d).2, by rw [← hn]⟩
  obtain ⟨name, d1, h1⟩ := okm d
  obtain ⟨cs, d2, h2⟩ := okc name d1
  refine ⟨name, d1, cs, d2, h1, h2, ?_⟩
  rw [convParam] at h
  simp only [h1, h2] at h
  cases given with
  | true =>
    simp only [if_true] at h fine
    have hvv : values.verdict = .fine := by
      cases hw : values.verdict with
      | fine => rfl
      | _ => rw [hw] at fine; simp at fine
    have := convFields_as values name parent d2
    rw [hvv] at this
    obtain ⟨vs, hvs⟩ := this
    rcases hr : convFields values name parent d2 with ⟨r, d3⟩
    rw [hr] at hvs
    simp only at hvs
    subst hvs
    rw [hr] at h
    simp only [Prod.mk.injEq, Res.ok.injEq] at h
    obtain ⟨h3, rfl⟩ := h
    exact .inl ⟨rfl, vs, rfl, h3.symm⟩
  | false =>
    obtain ⟨name', d3, h3⟩ := okm d2
    obtain ⟨cs', d4, h4⟩ := okc name' d3
    simp only [h3, h4, Bool.false_eq_true, if_false, Prod.mk.injEq, Res.ok.injEq] at h
    obtain ⟨h5, rfl⟩ := h
    exact .inr ⟨rfl, name', d3, cs', h3, h4, h5.symm⟩

/-- The reference to a data frame. -/
theorem convDataFrame_ok (name : String) (url table column scenario : Option String) (d d' : Data) (o : Definition)
    (h : convDataFrame name url table column scenario d = (.ok o, d')) :
    ¬ (column.isSome = true ∧ scenario.isSome = true) ∧
      ((∃ u, url = some u ∧ o = .series name ⟨name, (column.map (false, ·)).or (scenario.map (true, ·))⟩ ∧
        d' = (if d.timeseries.any (fun s => s.name == name) then d
          else { d with timeseries := d.timeseries ++ [⟨name, u⟩] })) ∨
      (url = none ∧ ∃ t, table = some t ∧ o = .series name ⟨t, (column.map (false, ·)).or (scenario.map (true, ·))⟩ ∧
        d' = d)) := by
  cases url <;> cases table <;> cases column <;> cases scenario <;> simp [convDataFrame] at h ⊢ <;>
    exact ⟨h.1.symm, h.2.symm⟩

theorem convMeta_name (md : Meta) (parent : Option String) (d d' : Data) (name : String)
    (h : convMeta md parent d = (.ok name, d')) : ∀ x, md.name = some x → name = x :=
  (convMeta_as md parent d).2 name (by rw [h])

/-- The kind of definition that comes out. -/
theorem convParam_ok (p : Param) (parent : Option String) (d d' : Data) (o : Definition)
    (h : convParam p parent d = (.ok o, d')) :
    (∀ c, o = .parameter c → p.isFrame = false ∧ p.Shape c) ∧
      ∀ n r, o = .series n r → p.isFrame = true ∧ ∀ x, p.name = some x → p.frame = some (x, r) ∧ n = x ∧
          ∀ md u t c s, p = .dataFrame md (some u) t c s → ∃ s ∈ d'.timeseries, s.name = x := by
  cases p with
  | core ty md f =>
    obtain ⟨name, d1, as, h1, h2, rfl⟩ := convParam_core _ _ _ _ _ _ _ h
    refine ⟨fun c hc => ?_, fun n r hc => (by cases hc)⟩
    cases hc
    exact ⟨rfl, rfl, fun x hx => convMeta_name _ _ _ _ _ h1 x hx⟩
  | controlCurve md storage curves given values =>
    obtain ⟨name, d1, cs, d2, h1, h2, h3 | h3⟩ := convParam_curve _ _ _ _ _ _ _ _ _ h
    · obtain ⟨rfl, vs, h3, rfl⟩ := h3
      refine ⟨fun c hc => ?_, fun n r hc => (by cases hc)⟩
      cases hc
      exact ⟨rfl, rfl, fun x hx => convMeta_name _ _ _ _ _ h1 x hx⟩
    · obtain ⟨rfl, name', d3, cs', h3, h4, rfl⟩ := h3
      refine ⟨fun c hc => ?_, fun n r hc => (by cases hc)⟩
      cases hc
      exact ⟨rfl, rfl, fun x hx => convMeta_name _ _ _ _ _ h3 x hx⟩
  | dataFrame md url table column scenario =>
    obtain ⟨name, d1, h1, h2⟩ := convParam_frame _ _ _ _ _ _ _ _ _ h
    obtain ⟨hcs, h3⟩ := convDataFrame_ok _ _ _ _ _ _ _ _ h2
    have hx : ∀ x, md.name = some x → md = .given (some x) true ∧ name = x := by
      intro x hx
      have hn := convMeta_name _ _ _ _ _ h1 x hx
      cases md with
      | missing => simp [Meta.name] at hx
      | given n tags =>
        simp only [Meta.name] at hx
        subst hx
        cases tags with
        | true => exact ⟨rfl, hn⟩
        | false => simp [convMeta] at h1
    rcases h3 with ⟨u, rfl, rfl, h4⟩ | ⟨rfl, t, rfl, rfl, h4⟩
    · refine ⟨fun c hc => (by cases hc), fun n r hc => ⟨rfl, fun x hx' => ?_⟩⟩
      obtain ⟨rfl, rfl⟩ := hx x hx'
      cases hc
      refine ⟨by simp only [Param.frame]; rw [if_neg hcs], rfl, fun _ _ _ _ _ _ => ?_⟩
      subst h4
      by_cases ha : d1.timeseries.any (fun s => s.name == name) = true
      · rw [if_pos ha]
        rw [List.any_eq_true] at ha
        obtain ⟨s, hs, hs2⟩ := ha
        exact ⟨s, hs, by simpa using hs2⟩
      · rw [if_neg ha]
        exact ⟨⟨name, u⟩, by simp, rfl⟩
    · refine ⟨fun c hc => (by cases hc), fun n r hc => ⟨rfl, fun x hx' => ?_⟩⟩
      obtain ⟨rfl, rfl⟩ := hx x hx'
      cases hc
      exact ⟨by simp only [Param.frame]; rw [if_neg hcs], rfl, fun _ _ _ _ _ he => by cases he⟩
  | refused n why => simp [convParam] at h
  | unimplemented => simp [convParam] at h

/-- The loop over parameters ends early only at a parameter that stops it. -/
theorem convParams_none (ps : List Param) (acc : Params) (d : Data) :
    convParams ps acc d = none ↔ ∃ p ∈ ps, p.verdict = .stops := by
  induction ps generalizing acc d with
  | nil => simp [convParams]
  | cons p ps ih =>
    have hn := convParam_as p none d
    rw [convParams]
    rcases hr : convParam p none d with ⟨r, d1⟩
    rw [hr] at hn
    cases hv : p.verdict with
    | fine =>
      rw [hv] at hn
      obtain ⟨c, hc⟩ := hn
      simp only at hc
      subst hc
      cases c <;> simp [ih, hv]
    | wrong a c =>
      rw [hv] at hn
      obtain ⟨m, hm, hc⟩ := hn
      simp only at hc
      subst hc
      simp [ih, hv]
    | stops =>
      rw [hv] at hn
      have hn : r = .panic := hn
      subst hn
      simp [hv]

/-- What the loop over parameters collects. -/
theorem convParams_some (ps : List Param) (acc acc' : Params) (d d' : Data)
    (h : convParams ps acc d = some (acc', d')) :
    (∃ cs, acc'.parameters = acc.parameters ++ cs ∧
      List.Forall₂ Param.Shape (ps.filter fun p => p.verdict == .fine && !p.isFrame) cs) ∧
    (∃ es, acc'.errors = acc.errors ++ es ∧
      List.Forall₂ Param.Reported (ps.filter Param.faulty) (es.map .component)) ∧
    ((∀ p ∈ ps, p.name.isSome = true) → acc'.refs = acc.refs ++ ps.filterMap Param.frame) := by
  induction ps generalizing acc d with
  | nil =>
    simp only [convParams, Option.some.injEq, Prod.mk.injEq] at h
    obtain ⟨rfl, -⟩ := h
    exact ⟨⟨[], by simp, .nil⟩, ⟨[], by simp, .nil⟩, fun _ => by simp⟩
  | cons p ps ih =>
    have hn := convParam_as p none d
    rw [convParams] at h
    rcases hr : convParam p none d with ⟨r, d1⟩
    rw [hr] at hn h
    cases hv : p.verdict with
    | fine =>
      rw [hv] at hn
      obtain ⟨c, hc⟩ := hn
      simp only at hc
      subst hc
      obtain ⟨h1, h2⟩ := convParam_ok p none d d1 c hr
      cases c with
      | parameter c =>
        obtain ⟨⟨cs, i1, i2⟩, ⟨es, i3, i4⟩, i5⟩ := ih _ _ h
        obtain ⟨h3, h4⟩ := h1 c rfl
        have hfr : p.frame = none := by
          cases p <;> first | rfl | cases h3
        refine ⟨⟨c :: cs, by rw [i1]; simp, ?_⟩, ⟨es, i3, ?_⟩, fun hh => ?_⟩
        · rw [List.filter_cons_of_pos (by simp [hv, h3])]
          exact .cons h4 i2
        · rw [List.filter_cons_of_neg (by simp [Param.faulty, hv])]
          exact i4
        · rw [i5 fun q hq => hh q (List.mem_cons_of_mem _ hq), List.filterMap_cons_none hfr]
      | series n r =>
        obtain ⟨⟨cs, i1, i2⟩, ⟨es, i3, i4⟩, i5⟩ := ih _ _ h
        obtain ⟨h3, h4⟩ := h2 n r rfl
        refine ⟨⟨cs, i1, ?_⟩, ⟨es, i3, ?_⟩, fun hh => ?_⟩
        · rw [List.filter_cons_of_neg (by simp [h3])]
          exact i2
        · rw [List.filter_cons_of_neg (by simp [Param.faulty, hv])]
          exact i4
        · obtain ⟨x, hx⟩ := Option.isSome_iff_exists.1 (hh p (List.mem_cons_self ..))
          obtain ⟨h5, rfl, -⟩ := h4 x hx
          rw [i5 fun q hq => hh q (List.mem_cons_of_mem _ hq), List.filterMap_cons_some h5]
          simp
    | wrong a c =>
      rw [hv] at hn
      obtain ⟨m, hm, hc⟩ := hn
      simp only at hc
      subst hc
      obtain ⟨⟨cs, i1, i2⟩, ⟨es, i3, i4⟩, i5⟩ := ih _ _ h
      have hfr : p.frame = none := by
        cases p with
        | dataFrame md url table column scenario =>
          cases md with
          | missing => rfl
          | given n tags =>
            cases n with
            | none => rfl
            | some n =>
              cases tags with
              | false => rfl
              | true =>
                simp only [Param.verdict, Meta.verdict, Verdict.and] at hv
                simp only [Param.frame]
                cases url <;> cases table <;> cases column <;> cases scenario <;> simp at hv ⊢
        | _ => rfl
      refine ⟨⟨cs, i1, ?_⟩, ⟨⟨m, a, c⟩ :: es, by rw [i3]; simp, ?_⟩, fun hh => ?_⟩
      · rw [List.filter_cons_of_neg (by simp [hv])]
        exact i2
      · rw [List.filter_cons_of_pos (by simp [Param.faulty, hv])]
        exact .cons ⟨m, a, c, hv, hm, rfl⟩ i4
      · rw [i5 fun q hq => hh q (List.mem_cons_of_mem _ hq), List.filterMap_cons_none hfr]
    | stops =>
      rw [hv] at hn
      have hn : r = .panic := hn
      subst hn
      simp at h

end Verif.V1
