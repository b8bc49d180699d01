import Verif.Lemmas.ChoiceCreate
import Verif.Props.Solver

/-!
# A model with exclusive groups and the model without them
-/

namespace Verif.Solver

open Verif.State (NodeKind Edge)
open Verif.Topology (Network TNode)

open Classical in
/-- The model without exclusivity relationships and without flow limits of members. -/
noncomputable def Model.relax (M : Model) : Model :=
  { net := M.net
    data := fun i => { M.data i with
      minFlow := if InGroup M i then none else (M.data i).minFlow
      maxFlow := if InGroup M i then none else (M.data i).maxFlow }
    aggs := M.aggs.map AggNode.relax
    vs := M.vs }

section
variable {M : Model}

theorem Model.relax_out {i : Nat} (h : ¬ InGroup M i) : M.relax.data i = M.data i := by
  unfold Model.relax
  simp only [if_neg h]

theorem Model.relax_valid (hv : M.Valid) : M.relax.Valid := by
  refine ⟨hv.built, ?_, hv.vs⟩
  intro a ha
  obtain ⟨a', ha', rfl⟩ := List.mem_map.1 ha
  exact hv.aggs a' ha'

theorem Model.relax_noEx : M.relax.NoExclusivity := by
  intro a ha
  obtain ⟨a', _, rfl⟩ := List.mem_map.1 ha
  exact a'.relax_exclusivity

theorem relax_setupPairs (a : AggNode) : a.relax.setupPairs = a.setupPairs := by
  unfold AggNode.setupPairs
  rw [a.relax_factors]
  rfl

theorem Model.relax_factors (hf : M.FactorsOk) : M.relax.FactorsOk := by
  refine ⟨?_, ?_, ?_, ?_, ?_⟩
  · intro a ha F hF
    obtain ⟨a', ha', rfl⟩ := List.mem_map.1 ha
    rw [a'.relax_factors] at hF
    exact hf.setup a' ha' F hF
  · intro a ha F hF
    obtain ⟨a', ha', rfl⟩ := List.mem_map.1 ha
    rw [a'.relax_factors] at hF
    exact hf.rhs a' ha' F hF
  · intro a ha p hp
    obtain ⟨a', ha', rfl⟩ := List.mem_map.1 ha
    rw [relax_setupPairs] at hp
    exact hf.apart a' ha' p hp
  · intro a ha p hp
    obtain ⟨a', ha', rfl⟩ := List.mem_map.1 ha
    rw [relax_setupPairs] at hp
    exact hf.storage a' ha' p hp
  · have : M.relax.aggs.flatMap AggNode.setupPairs = M.aggs.flatMap AggNode.setupPairs := by
      show (M.aggs.map AggNode.relax).flatMap _ = _
      rw [List.flatMap_map]
      congr 1
      funext a
      exact relax_setupPairs a
    rw [this]
    exact hf.distinct

/-- Members have constant limits. -/
theorem member_bounds (hv : M.Valid) (hc : MembersConstant M) {n : TNode} (hn : n ∈ M.net.nodes) (h : InGroup M n.index) :
    ∃ lo hi, ConstantBounds M n.index lo hi ∧ n.kind ≠ .storage ∧ M.net.nodes[n.index]? = some n ∧
      constBounds n (M.data n.index) = some (lo, hi) ∧ constBounds n (M.relax.data n.index) = some (0, f64MAX) := by
  obtain ⟨g, ⟨a, ha, mn, mx, hex, hg⟩, hi⟩ := h
  obtain ⟨lo, up, hb⟩ := hc a ha mn mx hex g hg _ hi
  obtain ⟨n', h1, h2, h3, h4, h5⟩ := constBounds_of hv hb
  obtain ⟨k, hk⟩ := List.mem_iff_getElem?.1 hn
  have hix := (Created.wf hv).nodeIndex k n hk
  rw [← hix] at hk
  rw [hk] at h1
  cases h1
  refine ⟨lo, up, hb, h4, hk, h5, ?_⟩
  have hin : InGroup M n.index := ⟨g, ⟨a, ha, mn, mx, hex, hg⟩, hi⟩
  unfold constBounds Model.relax
  simp only [if_pos hin, constOr]

theorem edgeCost_relax (σ : Nat → Option ℚ) (e : Edge) : edgeCost M.relax σ e = edgeCost M σ e := rfl

theorem costIs_relax (σ : Nat → Option ℚ) (n : TNode) (c : ℚ) : CostIs M.relax σ n c ↔ CostIs M σ n c := Iff.rfl

end

/-! ## Programs -/

theorem fold_tail (big : ℚ) (rs : List Row) : ∀ a : Arrays, ∃ t : Tail, (∀ k ∈ t.rowMask, k ≠ 1) ∧
    rs.foldl (fun a r => a.push big 0 r) a = ⟨a.rowLower ++ t.rowLower, a.rowUpper ++ t.rowUpper, a.rowMask ++ t.rowMask,
      a.rowStarts ++ t.rowStarts, a.columns ++ t.columns, a.elements ++ t.elements⟩ := by
  induction rs with
  | nil => intro a; exact ⟨⟨[], [], [], [], [], []⟩, by simp, by simp⟩
  | cons r rs ih =>
    intro a
    obtain ⟨t, h1, h2⟩ := ih (a.push big 0 r)
    refine ⟨⟨r.lower :: t.rowLower, r.upper.getD big :: t.rowUpper, 0 :: t.rowMask,
      (a.rowStarts.getLastD 0 + r.columns.length) :: t.rowStarts, r.columns.map (·.1) ++ t.columns,
      r.columns.map (·.2) ++ t.elements⟩, ?_, ?_⟩
    · rw [List.forall_mem_cons]; exact ⟨by simp, h1⟩
    · rw [List.foldl_cons, h2]
      simp [Arrays.push]

/-- The variable rows of a builder. -/
def rowsOnly (big negBig : ℚ) (rows : List Row) : Lp := (LpBuilder.mk big negBig [] [] [] [] rows []).build

theorem rowsOnly_base (big negBig : ℚ) (rows : List Row) : Base rows.length (rowsOnly big negBig rows) := by
  have hg := (LpBuilder.mk big negBig [] [] [] [] rows []).build_good
  have hr : (LpBuilder.mk big negBig [] [] [] [] rows []).allRows = rows.map (fun r => (r, 1)) := by simp [LpBuilder.allRows]
  rw [hr] at hg
  have hc : (rowsOnly big negBig rows).columns.length = (rows.map (·.columns.length)).sum := by
    have := hg.columns
    simp only at this
    unfold rowsOnly
    rw [this]
    simp [List.length_flatMap, Function.comp_def]
  refine ⟨?_, ?_, ?_, ?_, ?_, ?_⟩
  · have := hg.lower; simp only at this; unfold rowsOnly; rw [this]; simp
  · have := hg.upper; simp only at this; unfold rowsOnly; rw [this]; simp
  · have := hg.mask; simp only at this; unfold rowsOnly; rw [this]; simp
  · have := hg.starts; simp only at this; unfold rowsOnly; rw [this]; simp
  · intro i hi
    have := hg.starts
    simp only at this
    unfold rowsOnly at hi
    rw [this] at hi
    obtain ⟨j, _, rfl⟩ := List.mem_map.1 hi
    rw [hc, ← List.map_take, List.map_map]
    have e : ((fun x : Row × Nat => x.1.columns.length) ∘ fun r => (r, 1)) = fun r => r.columns.length := rfl
    rw [e]
    conv_rhs => rw [← List.take_append_drop j rows, List.map_append, List.sum_append]
    omega
  · rw [hc]
    have := hg.elements
    simp only at this
    unfold rowsOnly
    rw [this]
    simp [List.length_flatMap, Function.comp_def]

theorem build_onto (b : LpBuilder) : ∃ t : Tail, (∀ k ∈ t.rowMask, k ≠ 1) ∧
    b.build = (rowsOnly b.f64Max b.f64NegMax b.rows).onto t ⟨b.colLower, b.colUpper, b.colObj, b.colType⟩ := by
  obtain ⟨t, h1, h2⟩ := fold_tail b.f64Max b.fixedRows (b.rows.foldl (fun a r => a.push b.f64Max 1 r) ⟨[], [], [], [0], [], []⟩)
  refine ⟨t, h1, ?_⟩
  unfold rowsOnly LpBuilder.build Lp.onto
  simp only [h2, List.foldl_nil]

/-- Programs with and without groups, as created. -/
structure Twin (M : Model) (big negBig : ℚ) (sets : List (List Nat)) (s s' : Built) (m : ColMap) (b b' : LpBuilder) (bins : Bins)
    (core : (Nat → ℚ) → Prop) : Prop where
  colMap : createColMap M.net = .ok m
  cols : m.build = some s.cols
  sameCols : s'.cols = s.cols
  sameNodes : s'.nodeRows = s.nodeRows
  sameFactors : s'.factorRows = s.factorRows
  sameAggs : s'.aggRows = s.aggRows
  sameVs : s'.vsRows = s.vsRows
  rows : b'.rows = b.rows
  f64Max : b.f64Max = big
  f64Max' : b'.f64Max = big
  f64NegMax : b.f64NegMax = negBig
  f64NegMax' : b'.f64NegMax = negBig
  ids : RowIds s b.rows.length
  nodeIds : ∀ r ∈ s.nodeRows, ∃ n ∈ M.net.nodes, r.node = n.index ∧ constBounds n (M.relax.data n.index) = none
  colLower : b.colLower = List.replicate (m.colToEdges.length + sets.length) 0
  colUpper : b.colUpper = List.replicate m.colToEdges.length big ++ List.replicate sets.length 1
  colType : b.colType = List.replicate m.colToEdges.length .continuous ++ List.replicate sets.length .integer
  colObj : b.colObj.length = m.colToEdges.length + sets.length
  colLower' : b'.colLower = List.replicate m.colToEdges.length 0
  colUpper' : b'.colUpper = List.replicate m.colToEdges.length big
  colType' : b'.colType = List.replicate m.colToEdges.length .continuous
  colObj' : b'.colObj.length = m.colToEdges.length
  fixed : ∀ x, (∀ r ∈ b.fixedRows, r.Holds big x) ↔ core x ∧
    (∀ n ∈ M.net.nodes, ∀ lo hi, constBounds n (M.data n.index) = some (lo, hi) →
        (Verif.Topology.lookup n.index bins.ofNode = none → lo ≤ nodeFlow (via m x) n ∧ nodeFlow (via m x) n ≤ hi) ∧
        ∀ cs, Verif.Topology.lookup n.index bins.ofNode = some cs → ∀ k ∈ cs,
          BinHold big lo hi (nodeFlow (via m x) n) (x k)) ∧
    ∀ a ∈ M.aggs, ∀ mn mx, a.exclusivity = some (mn, mx) →
        (mn : ℚ) ≤ (a.nodes.map fun g => x (groupCol bins.ofSet g)).sum ∧ (a.nodes.map fun g => x (groupCol bins.ofSet g)).sum ≤ mx
  fixed' : ∀ x, (∀ r ∈ b'.fixedRows, r.Holds big x) ↔ core x ∧
    ∀ n ∈ M.net.nodes, ∀ lo hi, constBounds n (M.relax.data n.index) = some (lo, hi) →
        lo ≤ nodeFlow (via m x) n ∧ nodeFlow (via m x) n ≤ hi
  ofSet : ∀ g ∈ sets, (g, groupCol bins.ofSet g) ∈ sets.zipIdx m.colToEdges.length
  noNode : ∀ i, Verif.Topology.lookup i bins.ofNode = none ↔ ¬ InGroup M i
  ofNode : ∀ i cs, Verif.Topology.lookup i bins.ofNode = some cs → ∀ k ∈ cs, ∃ g, i ∈ g ∧ (g, k) ∈ sets.zipIdx m.colToEdges.length
  member : ∀ g ∈ sets, ∀ i ∈ g, ∃ cs, Verif.Topology.lookup i bins.ofNode = some cs ∧ groupCol bins.ofSet g ∈ cs

theorem mem_zipIdx {α : Type} (l : List α) : ∀ (n k : Nat) (a : α), l[k]? = some a → (a, n + k) ∈ l.zipIdx n := by
  induction l with
  | nil => intro n k a h; simp at h
  | cons b l ih =>
    intro n k a h
    rw [List.zipIdx_cons]
    cases k with
    | zero => simp only [List.getElem?_cons_zero, Option.some.injEq] at h; subst h; simp
    | succ k =>
      have := ih (n + 1) k a (by simpa using h)
      rw [show n + (k + 1) = n + 1 + k by omega]
      exact List.mem_cons_of_mem _ this

theorem of_mem_zipIdx {α : Type} (l : List α) : ∀ (n c : Nat) (a : α), (a, c) ∈ l.zipIdx n → n ≤ c ∧ l[c - n]? = some a := by
  induction l with
  | nil => intro n c a h; simp at h
  | cons b l ih =>
    intro n c a h
    rw [List.zipIdx_cons] at h
    rcases List.mem_cons.1 h with h | h
    · cases h; simp
    · obtain ⟨h1, h2⟩ := ih (n + 1) c a h
      refine ⟨by omega, ?_⟩
      rw [show c - n = (c - (n + 1)) + 1 by omega, List.getElem?_cons_succ]
      exact h2

theorem lookup_of_mem {κ ν : Type} [DecidableEq κ] {k : κ} {v : ν} {l : List (κ × ν)} (h : (k, v) ∈ l) :
    ∃ w, Verif.Topology.lookup k l = some w := by
  induction l with
  | nil => cases h
  | cons p l ih =>
    obtain ⟨a, w⟩ := p
    simp only [Verif.Topology.lookup]
    by_cases he : a = k
    · exact ⟨w, by rw [if_pos he]⟩
    · rw [if_neg he]
      rcases List.mem_cons.1 h with h | h
      · cases h; exact absurd rfl he
      · exact ih h

/-- **Creation side by side.** -/
theorem twin_create {M : Model} (hv : M.Valid) (hmc : MembersConstant M) (hf : M.FactorsOk) {sets : List (List Nat)}
    (hs : GroupsAre M sets) (big negBig : ℚ) (hne : M.net.edges ≠ []) :
    ∃ s s' m b b' bins core, create M big negBig sets = .ok s ∧ create M.relax big negBig [] = .ok s' ∧ s.lp = b.build ∧
      s'.lp = b'.build ∧ Twin M big negBig sets s s' m b b' bins core := by
  obtain ⟨s', hs'⟩ := (C56_create M.relax (Model.relax_valid hv) Model.relax_noEx (Model.relax_factors hf) big negBig).2 hne
  have h := hs'
  unfold create at h
  have hnet : M.relax.net = M.net := rfl
  have haggs : M.relax.aggs = M.aggs.map AggNode.relax := rfl
  have hvs : M.relax.vs = M.vs := rfl
  rw [hnet] at h
  cases hm : createColMap M.net with
  | error e => rw [hm] at h; cases h
  | ok m =>
    rw [hm] at h
    simp only [addBinaries] at h
    obtain ⟨g1, _, _⟩ := addBinaries_ok sets (addEdgeColumns m.colToEdges.length (LpBuilder.new big negBig)) ⟨[], []⟩
    obtain ⟨e1, e2, e3⟩ := addBinaries_exact sets (addEdgeColumns m.colToEdges.length (LpBuilder.new big negBig)) ⟨[], []⟩
    obtain ⟨_, _, new, e4, e5⟩ := addBinaries_ok sets (addEdgeColumns m.colToEdges.length (LpBuilder.new big negBig)) ⟨[], []⟩
    have hlen : (addEdgeColumns m.colToEdges.length (LpBuilder.new big negBig)).colLower.length = m.colToEdges.length := by
      rw [addEdgeColumns_ok]; simp [LpBuilder.new]
    rw [hlen] at e1 e3
    obtain ⟨tb, htb⟩ := hv.built
    obtain ⟨m', cols, hm', hcols, _, hcol, _⟩ := C16_columns tb M.net htb hne
    rw [hm] at hm'; cases hm'
    have hhas : HasCols m M.net := by
      intro n hn e he
      obtain ⟨c, _, hc, _⟩ := hcol e (edges_in_range (Created.wf hv) n hn e he)
      exact ⟨c, hc⟩
    cases hb : addBinaries sets (addEdgeColumns m.colToEdges.length (LpBuilder.new big negBig)) ⟨[], []⟩ with
    | mk c0 bins =>
      rw [hb] at g1 e1 e2 e3 e4 e5
      simp only [Verif.Topology.lookup, List.nil_append, true_and, Option.getD_none, List.not_mem_nil, false_or] at g1 e1 e2 e3 e4 e5
      -- the groups of nodes
      have hnone : ∀ i, Verif.Topology.lookup i bins.ofNode = none ↔ ¬ InGroup M i := by
        intro i
        rw [e2 i]
        constructor
        · rintro h ⟨g, hg, hi⟩
          exact h g ((hs g).2 hg) hi
        · intro h g hg hi
          exact h ⟨g, (hs g).1 hg, hi⟩
      unfold createRows at h
      rw [hnet, haggs, hvs] at h
      cases h1 : createMassBalance m M.net.nodes (addEdgeColumns m.colToEdges.length (LpBuilder.new big negBig)) with
      | none => simp [h1] at h
      | some bm =>
        simp only [h1] at h
        cases h2 : createNodeRows m M.relax.data [] M.net.nodes bm [] with
        | none => simp [h2] at h
        | some q2 =>
          obtain ⟨bn, nodeRows⟩ := q2
          simp only [h2] at h
          cases h3 : createAggRows m M.net (M.aggs.map AggNode.relax) bn [] with
          | none => simp [h3] at h
          | some q3 =>
            obtain ⟨ba, aggRows⟩ := q3
            simp only [h3] at h
            cases h4 : createFactorRows m M.net (M.aggs.map AggNode.relax) 0 ba [] with
            | none => simp [h4] at h
            | some q4 =>
              obtain ⟨bf, facRows⟩ := q4
              simp only [h4] at h
              cases h5 : createVsRows m M.net M.vs bf [] with
              | none => simp [h5] at h
              | some q5 =>
                obtain ⟨bv, vsRows⟩ := q5
                simp only [h5] at h
                rw [createExclusivityRows_none [] (M.aggs.map AggNode.relax) Model.relax_noEx bv] at h
                simp only [hcols, Except.ok.injEq] at h
                obtain ⟨F1, k1, k1'⟩ := createMassBalance_para m M.net.nodes _ _ h1
                obtain ⟨F2, k2, k2'⟩ := createNodeRows_para m M.net hhas M.data M.relax.data bins.ofNode M.net.nodes (fun _ h => h)
                  (fun n _ hl => Model.relax_out ((hnone _).1 hl))
                  (fun n hn cs hl => by
                    have : InGroup M n.index := by
                      by_contra hc
                      rw [(hnone _).2 hc] at hl; cases hl
                    obtain ⟨lo, hi, _, _, _, q1, q2⟩ := member_bounds hv hmc hn this
                    exact ⟨⟨_, q1⟩, ⟨_, q2⟩⟩) _ _ _ _ h2 { c0 with fixedRows := c0.fixedRows ++ F1 } (by rw [k1, g1])
                obtain ⟨bn', F2', N, o1, o2, o3, o4, o5⟩ := createNodeRows_ok m M.net hhas M.relax.data M.net.nodes (fun _ h => h) bm []
                rw [h2] at o1
                simp only [Option.some.injEq, Prod.mk.injEq, List.nil_append] at o1
                obtain ⟨rfl, hN⟩ := o1
                obtain ⟨k3, k3'⟩ := createAggRows_para m M.net M.aggs _ _ _ _ h3
                obtain ⟨F3, k4, k4'⟩ := createFactorRows_para m M.net M.aggs _ _ _ _ _ h4
                obtain ⟨k5, k5'⟩ := createVsRows_para m M.net M.vs _ _ _ _ h5
                obtain ⟨F4, k6, k6'⟩ := createExclusivityRows_exact bins.ofSet M.aggs (by
                    intro a ha mn mx hex g hg
                    have : g ∈ sets := (hs g).2 ⟨a, ha, mn, mx, hex, hg⟩
                    obtain ⟨k, hk⟩ := List.mem_iff_getElem?.1 this
                    rw [e1]
                    exact lookup_of_mem (v := m.colToEdges.length + k) (mem_zipIdx _ _ _ _ hk))
                  { c0 with rows := bv.rows, fixedRows := c0.fixedRows ++ F1 ++ F2 ++ F3 }
                have a1 := createMassBalance_adds _ _ _ _ h1
                obtain ⟨a2, i2, _⟩ := createNodeRows_adds _ _ _ _ _ _ _ _ h2
                obtain ⟨a3, i3⟩ := createAggRows_adds _ _ _ _ _ _ _ h3
                obtain ⟨a4, i4⟩ := createFactorRows_adds _ _ _ _ _ _ _ _ h4
                obtain ⟨a5, i5⟩ := createVsRows_adds _ _ _ _ _ _ _ h5
                have hall := (((a1.trans a2).trans a3).trans a4).trans a5
                have hsame := hall.same
                rw [addEdgeColumns_ok] at hsame
                have hc0 : c0.rows = [] ∧ c0.fixedRows = [] ∧ c0.f64Max = big := by rw [g1, addEdgeColumns_ok]; exact ⟨rfl, rfl, rfl⟩
                have hbm : bm.fixedRows = F1 := by rw [k1, addEdgeColumns_ok]; rfl
                have hsetcol : ∀ g ∈ sets, (g, groupCol bins.ofSet g) ∈ sets.zipIdx m.colToEdges.length := by
                  intro g hg
                  obtain ⟨k, hk⟩ := List.mem_iff_getElem?.1 hg
                  obtain ⟨w, hw⟩ := lookup_of_mem (k := g) (v := m.colToEdges.length + k) (l := sets.zipIdx m.colToEdges.length)
                    (mem_zipIdx _ _ _ _ hk)
                  unfold groupCol
                  rw [e1, hw]
                  exact lookup_mem _ _ _ hw
                refine ⟨⟨LpBuilder.build { c0 with rows := bv.rows, fixedRows := c0.fixedRows ++ F1 ++ F2 ++ F3 ++ F4 }, cols, nodeRows,
                    facRows, aggRows, vsRows⟩, s', m,
                  { c0 with rows := bv.rows, fixedRows := c0.fixedRows ++ F1 ++ F2 ++ F3 ++ F4 }, bv, bins,
                  fun x => (∀ r ∈ F1, r.Holds big x) ∧ ∀ r ∈ F3, r.Holds big x, ?_, hs', rfl, by rw [← h], ?_⟩
                · unfold create
                  rw [hm]
                  simp only [hb, createRows, k1', k2]
                  rw [k3' { c0 with rows := bn.rows, fixedRows := c0.fixedRows ++ F1 ++ F2 } rfl]
                  simp only
                  rw [k4' { c0 with rows := ba.rows, fixedRows := c0.fixedRows ++ F1 ++ F2 } rfl]
                  simp only
                  rw [k5' { c0 with rows := bf.rows, fixedRows := c0.fixedRows ++ F1 ++ F2 ++ F3 } rfl]
                  simp only
                  rw [k6]
                  simp only [hcols]
                · refine ⟨hm, hcols, by rw [← h], by rw [← h], by rw [← h], by rw [← h], by rw [← h], rfl, hc0.2.2, ?_, ?_, ?_, ⟨?_, ?_, ?_, ?_⟩,
                    ?_, ?_, ?_, ?_, ?_, ?_, ?_, ?_, ?_, ?_, ?_, hsetcol, hnone, ?_, ?_⟩
                  · rw [hsame]; rfl
                  · show c0.f64NegMax = _; rw [g1, addEdgeColumns_ok]; rfl
                  · rw [hsame]; rfl
                  · intro r hr
                    rcases i2 r hr with h | h
                    · cases h
                    · exact a5.lt (a4.lt (a3.lt h))
                  · intro q hq i hi
                    rcases i4 q hq with h | h
                    · cases h
                    · exact a5.lt (h i hi)
                  · intro i hi
                    rcases i3 i hi with h | h
                    · cases h
                    · exact a5.lt (a4.lt h)
                  · intro i hi
                    rcases i5 i hi with h | h
                    · cases h
                    · exact h
                  · intro r hr
                    replace hr : r ∈ nodeRows := hr
                    rw [hN] at hr
                    obtain ⟨p, hp, rfl⟩ := List.mem_map.1 hr
                    have : p.2.2 ∈ N.map (·.2.2) := List.mem_map.2 ⟨p, hp, rfl⟩
                    rw [o4, List.mem_filter] at this
                    exact ⟨p.2.2, this.1, rfl, Option.isNone_iff_eq_none.1 this.2⟩
                  · show c0.colLower = _; rw [g1, addEdgeColumns_ok]; simp [LpBuilder.new]
                  · show c0.colUpper = _; rw [g1, addEdgeColumns_ok]; simp [LpBuilder.new]
                  · show c0.colType = _; rw [g1, addEdgeColumns_ok]; simp [LpBuilder.new]
                  · show c0.colObj.length = _; rw [g1, addEdgeColumns_ok]; simp [LpBuilder.new]
                  · rw [hsame]; simp [LpBuilder.new]
                  · rw [hsame]; simp [LpBuilder.new]
                  · rw [hsame]; simp [LpBuilder.new]
                  · rw [hsame]; simp [LpBuilder.new]
                  · intro x
                    have hk2 := k2' big x
                    simp only [hc0.2.2] at hk2
                    rw [List.forall_mem_append, List.forall_mem_append, List.forall_mem_append, hc0.2.1, List.nil_append, hk2, k6' big x]
                    tauto
                  · intro x
                    have hbv : bv.fixedRows = F1 ++ F2' ++ F3 := by rw [k5, k4, k3, o2.fixed, hbm]
                    rw [hbv, List.forall_mem_append, List.forall_mem_append, o5 big x]
                    tauto
                  · intro i cs hl k hk
                    exact e3 i k (by rw [hl]; exact hk)
                  · intro g hg i hi
                    have en : new = sets.zipIdx m.colToEdges.length := e4.symm.trans e1
                    have := (e5 (g, groupCol bins.ofSet g) (by rw [en]; exact hsetcol g hg)).2 i hi
                    cases hl : Verif.Topology.lookup i bins.ofNode with
                    | none => rw [hl] at this; simp at this
                    | some cs => rw [hl] at this; exact ⟨cs, rfl, this⟩

/-! ## Steps -/

theorem factorLoop_relax (M : Model) (σ : Nat → Option ℚ) (cols : List Nat) (l : List (Nat × List (Option Nat))) : ∀ lp,
    factorLoop M.relax σ cols l lp = factorLoop M σ cols l lp := by
  induction l with
  | nil => intro lp; rfl
  | cons q l ih =>
    obtain ⟨k, rows⟩ := q
    intro lp
    have hk : M.relax.aggs[k]? = (M.aggs[k]?).map AggNode.relax := by
      show (M.aggs.map AggNode.relax)[k]? = _
      rw [List.getElem?_map]
    simp only [factorLoop, hk]
    cases M.aggs[k]? with
    | none => rfl
    | some a =>
      simp only [Option.map_some, a.relax_factors]
      cases a.factors with
      | none => rfl
      | some f =>
        have : a.relax.nodes = a.nodes := rfl
        simp only [this, ih]
        rfl

theorem aggLoop_relax (st : StepState) (rows : List Nat) : ∀ (as : List AggNode) lp,
    aggLoop st (rows.zip (as.map AggNode.relax)) lp = aggLoop st (rows.zip as) lp := by
  induction rows with
  | nil => intro as lp; rfl
  | cons r rows ih =>
    intro as lp
    cases as with
    | nil => rfl
    | cons a as =>
      simp only [List.map_cons, List.zip_cons_cons, aggLoop, ih]
      rfl

theorem nodeBoundsLoop_relax (M : Model) (hv : M.Valid) (st : StepState) (l : List NodeRow)
    (hl : ∀ r ∈ l, ∃ n ∈ M.net.nodes, r.node = n.index ∧ ¬ InGroup M n.index) : ∀ lp,
    nodeBoundsLoop M.relax st l lp = nodeBoundsLoop M st l lp := by
  induction l with
  | nil => intro lp; rfl
  | cons r l ih =>
    intro lp
    rw [List.forall_mem_cons] at hl
    obtain ⟨n, hn, hr, hg⟩ := hl.1
    obtain ⟨k, hk⟩ := List.mem_iff_getElem?.1 hn
    have hix := (Created.wf hv).nodeIndex k n hk
    rw [← hix, ← hr] at hk
    have hk' : M.relax.net.nodes[r.node]? = some n := hk
    simp only [nodeBoundsLoop, hk, hk', Model.relax_out hg, ih hl.2]

section
variable {M : Model} {big negBig : ℚ} {sets : List (List Nat)} {s s' : Built} {m : ColMap} {b b' : LpBuilder} {bins : Bins}
  {core : (Nat → ℚ) → Prop}

theorem Twin.out (h : Twin M big negBig sets s s' m b b' bins core) (hv : M.Valid) (hmc : MembersConstant M) :
    ∀ r ∈ s.nodeRows, ∃ n ∈ M.net.nodes, r.node = n.index ∧ ¬ InGroup M n.index := by
  intro r hr
  obtain ⟨n, hn, h1, h2⟩ := h.nodeIds r hr
  refine ⟨n, hn, h1, fun hg => ?_⟩
  obtain ⟨_, _, _, _, _, _, h3⟩ := member_bounds hv hmc hn hg
  rw [h3] at h2; cases h2

theorem rowsPart_twin (h : Twin M big negBig sets s s' m b b' bins core) (hv : M.Valid) (hmc : MembersConstant M) (st : StepState)
    (lp : Lp) : rowsPart M.relax s' st lp = rowsPart M s st lp := by
  unfold rowsPart
  rw [h.sameNodes, h.sameFactors, h.sameAggs, h.sameVs, h.sameCols, nodeBoundsLoop_relax M hv st _ (h.out hv hmc)]
  have e : M.relax.aggs = M.aggs.map AggNode.relax := rfl
  simp only [factorLoop_relax, e, aggLoop_relax]
  rfl

/-- The two programs at some point of a run. -/
structure Pair2 (M : Model) (big negBig : ℚ) (sets : List (List Nat)) (s s' : Built) (m : ColMap) (b b' : LpBuilder) (bins : Bins)
    (core : (Nat → ℚ) → Prop) : Prop where
  twin : Twin M big negBig sets s s' m b b' bins core
  keep : KeepInv b s.lp
  keep' : KeepInv b' s'.lp
  both : ∃ lp t c t' c', Base b.rows.length lp ∧ (∀ k ∈ t.rowMask, k ≠ 1) ∧ (∀ k ∈ t'.rowMask, k ≠ 1) ∧
    s.lp = lp.onto t c ∧ s'.lp = lp.onto t' c'

theorem Twin.withLp (h : Twin M big negBig sets s s' m b b' bins core) (lp lp' : Lp) :
    Twin M big negBig sets { s with lp := lp } { s' with lp := lp' } m b b' bins core :=
  ⟨h.colMap, h.cols, h.sameCols, h.sameNodes, h.sameFactors, h.sameAggs, h.sameVs, h.rows, h.f64Max, h.f64Max', h.f64NegMax,
    h.f64NegMax', ⟨h.ids.nodes, h.ids.factors, h.ids.aggs, h.ids.vs⟩, h.nodeIds, h.colLower, h.colUpper, h.colType, h.colObj,
    h.colLower', h.colUpper', h.colType', h.colObj', h.fixed, h.fixed', h.ofSet, h.noNode, h.ofNode, h.member⟩

theorem Twin.colsOk (h : Twin M big negBig sets s s' m b b' bins core) (hv : M.Valid) :
    M.net.edges ≠ [] ∧ ColInv M.net m ∧ (∀ e < M.net.edges.length, colOf m e < m.colToEdges.length) ∧
    s.cols.length = M.net.edges.length ∧ (∀ e, s.cols.getD e 0 = colOf m e) ∧ HasCols m M.net := by
  have hne : M.net.edges ≠ [] := fun h0 => by
    have := h.colMap
    rw [(C16_no_edges M.net).1 h0] at this; cases this
  obtain ⟨m', h1, hinv, hall⟩ := createColMap_ok (Created.wf hv) hne
  rw [h.colMap] at h1; cases h1
  obtain ⟨cols, h2, h3, h4⟩ := build_ok hinv hne hall
  rw [h.cols] at h2; cases h2
  refine ⟨hne, hinv, ?_, h3, ?_, ?_⟩
  · intro e he
    obtain ⟨c, hc⟩ := hall e he
    obtain ⟨es, h1, _⟩ := hinv.fwd e c hc
    have : colOf m e = c := by simp [colOf, ColMap.col, hc]
    rw [this]
    exact (List.getElem?_eq_some_iff.1 h1).1
  · intro e
    rw [List.getD_eq_getElem?_getD]
    unfold Verif.Solver.colOf ColMap.col
    by_cases he : e < M.net.edges.length
    · rw [h4 e he]
    · rw [List.getElem?_eq_none (by omega)]
      cases hf : m.edgeToCol.find e with
      | none => rfl
      | some c => exact absurd (hinv.bound e c hf) he
  · intro n hn e he
    obtain ⟨c, h⟩ := hall e (edges_in_range (Created.wf hv) n hn e he)
    exact ⟨c, h⟩

theorem Twin.flow (h : Twin M big negBig sets s s' m b b' bins core) (hv : M.Valid) (x : Nat → ℚ) :
    s.flow x = via m x ∧ s'.flow x = via m x := by
  have hc := (h.colsOk hv).2.2.2.2.1
  refine ⟨?_, ?_⟩
  · funext e; unfold Built.flow; rw [hc]
  · funext e; unfold Built.flow; rw [h.sameCols, hc]

/-- One step of the two programs. -/
theorem pair_step (h : Pair2 M big negBig sets s s' m b b' bins core) (hv : M.Valid) (hmc : MembersConstant M) (st : StepState) :
    (∀ s1, step M s st = .ok s1 → ∃ s1', step M.relax s' st = .ok s1') ∧
    (∀ s1', step M.relax s' st = .ok s1' → ∃ s1, step M s st = .ok s1) ∧
    ∀ s1 s1', step M s st = .ok s1 → step M.relax s' st = .ok s1' → Pair2 M big negBig sets s1 s1' m b b' bins core := by
  obtain ⟨lp, t, c, t', c', hb, ht, ht', e, e'⟩ := h.both
  have hco := h.twin.colsOk hv
  have wf := Created.wf hv
  have hedge : ∀ e ∈ M.net.edges, e.index < M.net.edges.length := by
    intro e he
    obtain ⟨k, hk⟩ := List.mem_iff_getElem?.1 he
    rw [(wf.index k e hk).1]
    exact (List.getElem?_eq_some_iff.1 hk).1
  have ho := objectiveLoop_ok M st.metric s.cols M.net.edges s.lp.zeroObj (by
    intro e he
    refine ⟨by rw [hco.2.2.2.1]; exact hedge e he, ?_⟩
    show s.cols.getD e.index 0 < (s.lp.colObj.map _).length
    rw [List.length_map, h.keep.colObj, h.twin.colObj, hco.2.2.2.2.1]
    exact Nat.lt_of_lt_of_le (hco.2.2.1 _ (hedge e he)) (Nat.le_add_right _ _))
  have ho' := objectiveLoop_ok M.relax st.metric s'.cols M.net.edges s'.lp.zeroObj (by
    intro e he
    rw [h.twin.sameCols]
    refine ⟨by rw [hco.2.2.2.1]; exact hedge e he, ?_⟩
    show s.cols.getD e.index 0 < (s'.lp.colObj.map _).length
    rw [List.length_map, h.keep'.colObj, h.twin.colObj', hco.2.2.2.2.1]
    exact hco.2.2.1 _ (hedge e he))
  have hnet : M.relax.net = M.net := rfl
  -- the objective
  have hobj : (∃ obj, objectiveLoop M st.metric s.cols M.net.edges s.lp.zeroObj = .ok (lp.onto t { c with colObj := obj })) ∧
      (∃ obj, objectiveLoop M.relax st.metric s'.cols M.net.edges s'.lp.zeroObj = .ok (lp.onto t' { c' with colObj := obj })) ∨
      (∀ lp', objectiveLoop M st.metric s.cols M.net.edges s.lp.zeroObj ≠ .ok lp') ∧
      (∀ lp', objectiveLoop M.relax st.metric s'.cols M.net.edges s'.lp.zeroObj ≠ .ok lp') := by
    by_cases hall : ∀ e ∈ M.net.edges, (edgeCost M st.metric e).isSome
    · left
      obtain ⟨q, hq⟩ := ho.2 hall
      obtain ⟨q', hq'⟩ := ho'.2 hall
      obtain ⟨obj, o1, _⟩ := objectiveLoop_same _ _ _ _ _ _ hq
      obtain ⟨obj', o1', _⟩ := objectiveLoop_same _ _ _ _ _ _ hq'
      refine ⟨⟨obj, ?_⟩, ⟨obj', ?_⟩⟩
      · rw [hq, o1, e]; rfl
      · rw [hq', o1', e']; rfl
    · right
      refine ⟨fun lp' h1 => hall ?_, fun lp' h1 => hall ?_⟩
      · obtain ⟨cs, _, g, _⟩ := ho.1 lp' h1
        exact (all_some _).1 ⟨cs, g.symm⟩
      · obtain ⟨cs, _, g, _⟩ := ho'.1 lp' h1
        exact (all_some _).1 ⟨cs, g.symm⟩
  rcases hobj with ⟨⟨obj, h1⟩, ⟨obj', h1'⟩⟩ | ⟨h1, h1'⟩
  · obtain ⟨r1, r2⟩ := rowsPart_onto M s st t { c with colObj := obj } h.twin.ids hb ht
    have ids' : RowIds s' b.rows.length := by
      refine ⟨?_, ?_, ?_, ?_⟩
      · rw [h.twin.sameNodes]; exact h.twin.ids.nodes
      · rw [h.twin.sameFactors]; exact h.twin.ids.factors
      · rw [h.twin.sameAggs]; exact h.twin.ids.aggs
      · rw [h.twin.sameVs]; exact h.twin.ids.vs
    obtain ⟨r1', _⟩ := rowsPart_onto M.relax s' st t' { c' with colObj := obj' } ids' hb ht'
    simp only [rowsPart_twin h.twin hv hmc] at r1'
    have e1 : step M s st = (rowsPart M s st lp).map fun q => { s with lp := q.onto t { c with colObj := obj } } := by
      rw [step_rowsPart, h1]
      simp only
      rw [r1]
      cases rowsPart M s st lp <;> rfl
    have e1' : step M.relax s' st = (rowsPart M s st lp).map fun q => { s' with lp := q.onto t' { c' with colObj := obj' } } := by
      rw [step_rowsPart, hnet, h1']
      simp only
      rw [rowsPart_twin h.twin hv hmc, r1']
      cases rowsPart M s st lp <;> rfl
    cases hr : rowsPart M s st lp with
    | error er =>
      rw [hr] at e1 e1'
      refine ⟨?_, ?_, ?_⟩
      · intro s1 hs; rw [e1] at hs; cases hs
      · intro s1 hs; rw [e1'] at hs; cases hs
      · intro s1 s1' hs; rw [e1] at hs; cases hs
    | ok q =>
      rw [hr] at e1 e1'
      refine ⟨fun _ _ => ⟨_, e1'⟩, fun _ _ => ⟨_, e1⟩, ?_⟩
      intro s1 s1' hs hs'
      have k1 := (step_keep h.twin.ids h.keep hs).2.1
      have k1' := (step_keep (b := b') (by rw [h.twin.rows]; exact ids') h.keep' hs').2.1
      rw [e1] at hs
      rw [e1'] at hs'
      have g1 := Except.ok.inj hs
      have g1' := Except.ok.inj hs'
      subst g1; subst g1'
      exact ⟨h.twin.withLp _ _, k1, k1', q, t, _, t', _, r2 q hr, ht, ht', rfl, rfl⟩
  · refine ⟨?_, ?_, ?_⟩
    · intro s1 hs
      rw [step_rowsPart] at hs
      cases ho : objectiveLoop M st.metric s.cols M.net.edges s.lp.zeroObj with
      | error er => rw [ho] at hs; cases hs
      | ok lp' => exact absurd ho (h1 lp')
    · intro s1 hs
      rw [step_rowsPart, hnet] at hs
      cases ho : objectiveLoop M.relax st.metric s'.cols M.net.edges s'.lp.zeroObj with
      | error er => rw [ho] at hs; cases hs
      | ok lp' => exact absurd ho (h1' lp')
    · intro s1 s1' hs
      rw [step_rowsPart] at hs
      cases ho : objectiveLoop M st.metric s.cols M.net.edges s.lp.zeroObj with
      | error er => rw [ho] at hs; cases hs
      | ok lp' => exact absurd ho (h1 lp')

end

/-- Every program reached has its twin. -/
theorem reach_pair {M : Model} (hv : M.Valid) (hmc : MembersConstant M) (hf : M.FactorsOk) {sets : List (List Nat)}
    (hg : GroupsAre M sets) {big negBig : ℚ} {s : Built} (hs : Reach M big negBig sets s) :
    ∃ s' m b b' bins core, Reach M.relax big negBig [] s' ∧ Pair2 M big negBig sets s s' m b b' bins core := by
  induction hs with
  | create s h =>
    have hne : M.net.edges ≠ [] := by
      intro h0
      unfold create at h
      rw [(C16_no_edges M.net).1 h0] at h
      cases h
    obtain ⟨s1, s', m, b, b', bins, core, h1, h2, h3, h4, h5⟩ := twin_create hv hmc hf hg big negBig hne
    rw [h] at h1; cases h1
    obtain ⟨t, ht, e⟩ := build_onto b
    obtain ⟨t', ht', e'⟩ := build_onto b'
    refine ⟨s', m, b, b', bins, core, .create s' h2, h5, by rw [h3]; exact KeepInv.build b, by rw [h4]; exact KeepInv.build b',
      _, t, _, t', ⟨b'.colLower, b'.colUpper, b'.colObj, b'.colType⟩, rowsOnly_base b.f64Max b.f64NegMax b.rows, ht, ht', h3.trans e, ?_⟩
    rw [h4, e', h5.f64Max', h5.f64NegMax', h5.rows, h5.f64Max, h5.f64NegMax]
  | step s s1 st _ h ih =>
    obtain ⟨s', m, b, b', bins, core, hr, hp⟩ := ih
    obtain ⟨q1, _, q3⟩ := pair_step hp hv hmc st
    obtain ⟨s1', h'⟩ := q1 s1 h
    exact ⟨s1', m, b, b', bins, core, .step s' s1' st hr h', q3 s1 s1' h h'⟩

end Verif.Solver
