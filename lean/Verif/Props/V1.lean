import Verif.Lemmas.V1Means

/-!
# C89-C91: the conversion of old networks

The verdict on a component and the meaning of its attributes are in `Spec/V1.lean`. Examples and the networks for which
the claims fail are in `Props/V1Cases.lean`.
-/

namespace Verif.V1

theorem convert_some {v1 : Network} {r : Converted} (h : convert v1 = some r) :
    ∃ ns d ps d', convNodes v1.nodes ⟨[], [], []⟩ ⟨0, virtualNames v1.nodes, [], []⟩ = some (ns, d) ∧
      convParams v1.parameters ⟨[], [], []⟩ { d with count := 0 } = some (ps, d') ∧
      r = ⟨ns.nodes.map (updateComponent ps.refs), ns.virtualNodes, (convEdges v1.edges).1,
        (ps.parameters ++ d'.parameters).map (updateComponent ps.refs), d'.timeseries,
        ns.errors.map .component ++ (convEdges v1.edges).2.map (fun e => .edge e.1 e.2) ++ ps.errors.map .component
          ++ v1.tables.map .table⟩ := by
  unfold convert at h
  split at h
  · cases h
  · rename_i ns d hn
    split at h
    · cases h
    · rename_i ps d' hp
      exact ⟨ns, d, ps, d', hn, hp, (Option.some.inj h).symm⟩

/-- **C89.** The conversion of a network returns unless it contains a node or a global parameter, or one with a
parameter inside, of a type that is not implemented: then it does not return at all. -/
theorem C89_stops (v1 : Network) :
    convert v1 = none ↔ (∃ n ∈ v1.nodes, n.verdict = .stops) ∨ ∃ p ∈ v1.parameters, p.verdict = .stops := by
  unfold convert
  cases hn : convNodes v1.nodes ⟨[], [], []⟩ ⟨0, virtualNames v1.nodes, [], []⟩ with
  | none => simp [(convNodes_none _ _ _).1 hn]
  | some x =>
    obtain ⟨ns, d⟩ := x
    have hn' : ¬ ∃ n ∈ v1.nodes, n.verdict = .stops := by
      rw [← convNodes_none v1.nodes ⟨[], [], []⟩ ⟨0, virtualNames v1.nodes, [], []⟩, hn]
      simp
    simp only
    cases hp : convParams v1.parameters ⟨[], [], []⟩ { d with count := 0 } with
    | none => simp [(convParams_none _ _ _).1 hp]
    | some y =>
      have hp' : ¬ ∃ p ∈ v1.parameters, p.verdict = .stops := by
        rw [← convParams_none v1.parameters ⟨[], [], []⟩ { d with count := 0 }, hp]
        simp
      simp [hn', hp']

/-- **C89.** The nodes of the new network are those that can be converted, in order, each with its type and name; the
virtual ones are kept apart. -/
theorem C89_nodes (v1 : Network) (r : Converted) (h : convert v1 = some r) :
    r.nodes.map (fun c => (c.ty, c.name)) =
      (v1.nodes.filter fun n => n.verdict == .fine && !n.isVirtual).map (fun n => (n.ty, n.name)) ∧
    r.virtualNodes.map (fun c => (c.ty, c.name)) =
      (v1.nodes.filter fun n => n.verdict == .fine && n.isVirtual).map (fun n => (n.ty, n.name)) := by
  obtain ⟨ns, d, ps, d', h1, h2, rfl⟩ := convert_some h
  obtain ⟨i1, i2, -⟩ := convNodes_some _ _ _ _ _ h1
  refine ⟨?_, by simpa using i2⟩
  rw [List.map_map]
  have : ((fun c : Component => (c.ty, c.name)) ∘ updateComponent ps.refs) = fun c => (c.ty, c.name) := rfl
  rw [this]
  simpa using i1

/-- **C89.** The edges of the new network are those with known slots, in order, and written as before. -/
theorem C89_edges (v1 : Network) (r : Converted) (h : convert v1 = some r) :
    r.edges.map NewEdge.old = v1.edges.filter Edge.known := by
  obtain ⟨ns, d, ps, d', h1, h2, rfl⟩ := convert_some h
  exact (convEdges_eq v1.edges).1

/-- **C89.** The first parameters of the new network are the global ones that can be converted and are not data frames,
in order, each with its type and name; those of data frames that are read from a file appear as timeseries. -/
theorem C89_parameters (v1 : Network) (r : Converted) (h : convert v1 = some r) :
    (∃ globals extracted, r.parameters = globals ++ extracted ∧
      List.Forall₂ Param.Shape (v1.parameters.filter fun p => p.verdict == .fine && !p.isFrame) globals) ∧
    ∀ md u t c s x, Param.dataFrame md (some u) t c s ∈ v1.parameters → (Param.dataFrame md (some u) t c s).verdict = .fine →
      md.name = some x → ∃ ts ∈ r.timeseries, ts.name = x := by
  obtain ⟨ns, d, ps, d', h1, h2, rfl⟩ := convert_some h
  obtain ⟨⟨cs, i1, i2⟩, -, -⟩ := convParams_some _ _ _ _ _ h2
  refine ⟨⟨ps.parameters.map (updateComponent ps.refs), d'.parameters.map (updateComponent ps.refs), by simp, ?_⟩, ?_⟩
  · rw [i1, List.nil_append, List.forall₂_map_right_iff]
    exact i2.imp fun p c hpc => hpc
  · intro md u t c s x hp hv hx
    exact convParams_series _ _ _ _ _ h2 _ hp hv x u md t c s hx rfl

/-- **C89.** Every node and parameter with something wrong, every edge with an unknown slot and every table is reported,
in this order, by its name and with the attribute and the cause; nothing else is. -/
theorem C89_errors (v1 : Network) (r : Converted) (h : convert v1 = some r) :
    ∃ ps, r.errors = v1.nodes.filterMap Node.report ++
        (v1.edges.filter fun e => !e.known).map (fun e => .edge e.fromNode e.toNode) ++ ps ++ v1.tables.map .table ∧
      List.Forall₂ Param.Reported (v1.parameters.filter Param.faulty) ps := by
  obtain ⟨ns, d, ps, d', h1, h2, rfl⟩ := convert_some h
  obtain ⟨-, ⟨es, i1, i2⟩, -⟩ := convParams_some _ _ _ _ _ h2
  obtain ⟨-, -, i3⟩ := convNodes_some _ _ _ _ _ h1
  refine ⟨ps.errors.map .component, ?_, ?_⟩
  · simp only [i3, (convEdges_eq v1.edges).2, List.map_nil, List.nil_append, List.map_map]
    rfl
  · rw [i1]
    exact i2

/-! ## Names -/

theorem Network.Distinct.good {v1 : Network} (hd : v1.Distinct) :
    GoodNodes [] [] v1.nodes ∧
      GoodParams (v1.nodes.flatMap fun n => n.fields.written) (v1.nodes.map Node.name) v1.parameters := by
  have hc : Clean ((v1.nodes.flatMap fun n => n.fields.written) ++ v1.parameters.flatMap Param.written) :=
    ⟨hd.written, hd.notMadeUp⟩
  refine ⟨⟨hd.regularNodes, ?_, ?_⟩, ⟨hd.regularParams, hd.named, hc, hd.bases⟩⟩
  · rw [List.nil_append]
    exact hc.sublist (List.sublist_append_left _ _)
  · rw [List.nil_append]
    exact hd.bases.sublist (List.sublist_append_left _ _)

/-- The invariants at the end of the conversion. -/
theorem convert_books {v1 : Network} (hd : v1.Distinct) {ns : Nodes} {d d' : Data} {ps : Params}
    (h1 : convNodes v1.nodes ⟨[], [], []⟩ ⟨0, virtualNames v1.nodes, [], []⟩ = some (ns, d))
    (h2 : convParams v1.parameters ⟨[], [], []⟩ { d with count := 0 } = some (ps, d')) :
    Books (v1.nodes.flatMap fun n => n.fields.written) (v1.nodes.map Node.name) d.names ∧
    Books ((v1.nodes.flatMap fun n => n.fields.written) ++ v1.parameters.flatMap Param.written)
      (v1.nodes.map Node.name ++ v1.parameters.filterMap Param.name) (names1 ps d') ∧
    Books ((v1.nodes.flatMap fun n => n.fields.written) ++ v1.parameters.flatMap Param.written)
      (v1.nodes.map Node.name ++ v1.parameters.filterMap Param.name) (names2 ps d') := by
  obtain ⟨hg1, hg2⟩ := hd.good
  have hb := convNodes_books v1.nodes _ _ _ _ [] [] hg1 .nil h1
  rw [List.nil_append, List.nil_append] at hb
  have hb2 : Books (v1.nodes.flatMap fun n => n.fields.written) (v1.nodes.map Node.name)
      (names2 ⟨[], [], []⟩ { d with count := 0 }) := by
    have : List.Sublist (names2 ⟨[], [], []⟩ { d with count := 0 }) d.names := by
      simp [names2, Data.names]
    exact ⟨hb.1.sublist this, fun n hn => hb.2 n (this.subset hn)⟩
  obtain ⟨i1, i2⟩ := convParams_books v1.parameters ⟨[], [], []⟩ ps { d with count := 0 } d' _ _ hg2 hb hb2 h2
  exact ⟨hb, i1, i2⟩

/-- **C91.** The timeseries of a converted network have different names, whatever the names in the old one. -/
theorem C91_timeseries (v1 : Network) (r : Converted) (h : convert v1 = some r) :
    (r.timeseries.map Series.name).Nodup := by
  obtain ⟨ns, d, ps, d', h1, h2, rfl⟩ := convert_some h
  exact convParams_kept kept_nodup _ _ _ { d with count := 0 } _
    (convNodes_kept kept_nodup _ _ _ _ d (by simp) h1) h2

/-- **C91** (partial). If the names of an old network are distinct, then the parameters of the new network have
different names; each of them is written in the old network or made of the name of a node or parameter and a number; and
none is the name of a data frame.
What is missing: without the conditions in `Network.Distinct` names can coincide, see `Props/V1Cases.lean`. -/
theorem C91_unique_partial (v1 : Network) (r : Converted) (hd : v1.Distinct) (h : convert v1 = some r) :
    (r.parameters.map Component.name).Nodup ∧
    (∀ c ∈ r.parameters, c.name ∈ (v1.nodes.flatMap fun n => n.fields.written) ++ v1.parameters.flatMap Param.written ∨
      ∃ b ∈ v1.nodes.map Node.name ++ v1.parameters.filterMap Param.name, ∃ k, c.name = madeUp (some b) k) ∧
    ∀ c ∈ r.parameters, ∀ p ∈ v1.parameters, ∀ f, p.frame = some f → c.name ≠ f.1 := by
  obtain ⟨ns, d, ps, d', h1, h2, rfl⟩ := convert_some h
  obtain ⟨-, -, hb⟩ := convert_books hd h1 h2
  have hrefs := (convParams_some _ _ _ _ _ h2).2.2 hd.named
  rw [List.nil_append] at hrefs
  have hnames : ((ps.parameters ++ d'.parameters).map (updateComponent ps.refs)).map Component.name =
      ps.parameters.map Component.name ++ d'.parameters.map Component.name := by
    rw [List.map_map, List.map_append]
    rfl
  have hb' := hb
  obtain ⟨hnd, hmem⟩ := hb'
  unfold names2 at hnd hmem
  refine ⟨?_, ?_, ?_⟩
  · simp only [hnames]
    exact (List.nodup_append.1 hnd).1
  · intro c hc
    have : c.name ∈ ps.parameters.map Component.name ++ d'.parameters.map Component.name := by
      rw [← hnames]
      exact List.mem_map_of_mem hc
    exact hmem _ (List.mem_append_left _ this)
  · intro c hc p hp f hf he
    have h3 : c.name ∈ ps.parameters.map Component.name ++ d'.parameters.map Component.name := by
      rw [← hnames]
      exact List.mem_map_of_mem hc
    have h4 : f.1 ∈ ps.refs.map (·.1) := by
      rw [hrefs]
      exact List.mem_map_of_mem (List.mem_filterMap.2 ⟨p, hp, hf⟩)
    exact (List.nodup_append.1 hnd).2.2 _ h3 _ h4 he

/-! ## Meaning -/

theorem virtualNames_eq (ns : List Node) : virtualNames ns = (ns.filter Node.isVirtual).map Node.name := by
  induction ns with
  | nil => rfl
  | cons n ns ih =>
    cases n with
    | core v ty name tags f =>
      cases v with
      | false => simp [virtualNames, Node.isVirtual, ih]
      | true => rw [List.filter_cons_of_pos (by rfl), List.map_cons, ← ih]; rfl
    | _ => simp [virtualNames, Node.isVirtual, ih]

theorem Param.frame_name (p : Param) (f : String × Ref) (h : p.frame = some f) : p.name = some f.1 := by
  cases p with
  | dataFrame md url table column scenario =>
    cases md with
    | missing => simp [Param.frame] at h
    | given n tags =>
      cases n with
      | none => simp [Param.frame] at h
      | some n =>
        cases tags with
        | false => simp [Param.frame] at h
        | true =>
          simp only [Param.frame] at h
          split_ifs at h
          cases url <;> cases table <;> simp at h <;> subst h <;> rfl
  | _ => simp [Param.frame] at h

theorem named_inj {α : Type} (f : α → Option String) (l : List α) (h : (l.filterMap f).Nodup) (a b : α) (ha : a ∈ l)
    (hb : b ∈ l) (x : String) (hax : f a = some x) (hbx : f b = some x) : a = b := by
  induction l with
  | nil => cases ha
  | cons c l ih =>
    rcases List.mem_cons.1 ha with rfl | ha
    · rcases List.mem_cons.1 hb with rfl | hb
      · rfl
      · rw [List.filterMap_cons_some hax] at h
        exact absurd (List.mem_filterMap.2 ⟨b, hb, hbx⟩) (List.nodup_cons.1 h).1
    · rcases List.mem_cons.1 hb with rfl | hb
      · rw [List.filterMap_cons_some hbx] at h
        exact absurd (List.mem_filterMap.2 ⟨a, ‹a ∈ l›, hax⟩) (List.nodup_cons.1 h).1
      · refine ih ?_ ha hb
        cases hc : f c with
        | none => rwa [List.filterMap_cons_none hc] at h
        | some y => rw [List.filterMap_cons_some hc] at h; exact (List.nodup_cons.1 h).2

/-- **C90** (partial). The attributes of every converted node mean in the new network what they meant in the old one, to
any depth of parameters written inside; and the name of a global parameter that can be converted leads to that parameter
or to the timeseries that was made of it.
What is missing: references that the conversion does not update (`Network.Plain`), see `Props/V1Cases.lean`. -/
theorem C90_means_partial (v1 : Network) (r : Converted) (hd : v1.Distinct) (hp : v1.Plain) (h : convert v1 = some r) :
    List.Forall₂ (Node.becomes (env v1 r)) (v1.nodes.filter fun n => n.verdict == .fine && !n.isVirtual) r.nodes ∧
    List.Forall₂ (Node.becomes (env v1 r)) (v1.nodes.filter fun n => n.verdict == .fine && n.isVirtual) r.virtualNodes ∧
    ∀ p ∈ v1.parameters, p.verdict = .fine → ∀ x, p.name = some x → ∀ m,
      (Value.reference x).means (env v1 r) m → p.means (env v1 r) m := by
  obtain ⟨ns, d, ps, d', h1, h2, rfl⟩ := convert_some h
  obtain ⟨hb1, hb2, hb3⟩ := convert_books hd h1 h2
  obtain ⟨hg1, hg2⟩ := hd.good
  have hrefs := (convParams_some _ _ _ _ _ h2).2.2 hd.named
  rw [List.nil_append] at hrefs
  generalize hr : (⟨_, _, _, _, _, _⟩ : Converted) = r
  have hEp : (env v1 r).parameters = (ps.parameters ++ d'.parameters).map (updateComponent ps.refs) := by subst hr; rfl
  have hEs : (env v1 r).timeseries = d'.timeseries := by subst hr; rfl
  have hEn : r.nodes = ns.nodes.map (updateComponent ps.refs) := by subst hr; rfl
  have hEv : r.virtualNodes = ns.virtualNodes := by subst hr; rfl
  have hEf : (env v1 r).frames = ps.refs := hrefs.symm
  have hF : Final (env v1 r) ps.refs d' := by
    refine ⟨fun c hc => ?_, ?_, hEf, fun n => ?_, fun c hc f hf he => ?_⟩
    · rw [hEp]
      exact List.mem_map_of_mem (List.mem_append_right _ hc)
    · rw [hEs]
      exact fun _ hs => hs
    · rw [(convParams_mem _ _ _ _ _ h2).2.2]
      simp only
      rw [(convNodes_mem _ _ _ _ _ h1).2.2, virtualNames_eq]
      simp only [List.contains_eq_mem, decide_eq_true_eq]
      rfl
    · have hnd := hb3.1
      unfold names2 at hnd
      exact (List.nodup_append.1 hnd).2.2 c.name (List.mem_append_right _ (List.mem_map_of_mem hc)) f.1
        (List.mem_map_of_mem hf) he.symm
  have hmem2 := convParams_mem _ _ _ _ _ h2
  obtain ⟨⟨cs, i1, i2⟩, ⟨vs, i3, i4⟩⟩ := convNodes_means (env v1 r) ps.refs v1.nodes _ _ _ d [] [] hg1 .nil
    hp.nodes (hF.back (d := d) hmem2) h1
  rw [List.nil_append] at i1 i3
  refine ⟨by rw [hEn, i1]; exact i2, by rw [hEv, i3]; exact i4, ?_⟩
  intro p hpm hv x hx m hm
  have hb2' : Books (v1.nodes.flatMap fun n => n.fields.written) (v1.nodes.map Node.name)
      (names2 ⟨[], [], []⟩ { d with count := 0 }) := by
    have : List.Sublist (names2 ⟨[], [], []⟩ { d with count := 0 }) d.names := by
      simp [names2, Data.names]
    exact ⟨hb1.1.sublist this, fun n hn => hb1.2 n (this.subset hn)⟩
  have key := convParams_means (env v1 r) ps.refs v1.parameters ⟨[], [], []⟩ ps { d with count := 0 } d' _ _ hg2 hb1 hb2' hp.params hF (by
    intro c hc
    rw [hEp]
    exact List.mem_map_of_mem (List.mem_append_left _ hc)) h2 p hpm hv x hx
  have hnames : (v1.parameters.filterMap Param.name).Nodup := (List.nodup_append.1 hd.bases).2.1
  have huniq : ∀ f ∈ (env v1 r).frames, f.1 = x → p.frame = some f := by
    intro f hf hfx
    obtain ⟨q, hq, hqf⟩ := List.mem_filterMap.1 hf
    have hqn := q.frame_name f hqf
    rw [hfx] at hqn
    have : q = p := named_inj Param.name v1.parameters hnames q p hq hpm x hqn hx
    rw [← this]
    exact hqf
  have hlook : (env v1 r).frame x = p.frame.map (·.2) := by
    unfold Env.frame
    cases hfind : (env v1 r).frames.find? (fun f => f.1 == x) with
    | some f =>
      have h3 := List.find?_some hfind
      rw [huniq f (List.mem_of_find?_eq_some hfind) (by simpa using h3)]
    | none =>
      cases hpf : p.frame with
      | none => rfl
      | some f =>
        rw [List.find?_eq_none] at hfind
        have h3 := p.frame_name f hpf
        rw [hx] at h3
        exact absurd (by simp [← Option.some.inj h3]) (hfind f (List.mem_filterMap.2 ⟨p, hpm, hpf⟩))
  simp only [Value.means, hlook] at hm
  cases hpf : p.frame with
  | none =>
    rw [hpf] at hm key
    simp only [Option.map_none] at hm
    rw [hm]
    exact key
  | some f =>
    rw [hpf] at hm key
    simp only [Option.map_some] at hm
    rw [hm]
    exact key

end Verif.V1
