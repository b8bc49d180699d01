import Verif.Lemmas.SolverUpdate
import Verif.Lemmas.Matrix

/-! # The program created, without exclusivity -/

namespace Verif.Solver

open Verif.State (NodeKind Edge)
open Verif.Topology (Network TNode)

theorem addEdgeColumns_ok (n : Nat) : ∀ b : LpBuilder,
    addEdgeColumns n b = { b with
      colLower := b.colLower ++ List.replicate n 0, colUpper := b.colUpper ++ List.replicate n b.f64Max
      colObj := b.colObj ++ List.replicate n 0, colType := b.colType ++ List.replicate n .continuous } := by
  induction n with
  | zero => intro b; simp [addEdgeColumns]
  | succ n ih =>
    intro b
    simp only [addEdgeColumns, ih, LpBuilder.addColumn, List.append_assoc, List.singleton_append, List.replicate_succ]

theorem createExclusivityRows_none (bins : List (List Nat × Nat)) (as : List AggNode) (h : ∀ a ∈ as, a.exclusivity = none) :
    ∀ b : LpBuilder, createExclusivityRows bins as b = some b := by
  induction as with
  | nil => intro b; rfl
  | cons a as ih =>
    intro b
    rw [List.forall_mem_cons] at h
    simp only [createExclusivityRows, h.1]
    exact ih h.2 b

/-- Named variable rows. -/
def named (N : List (Nat × Row × TNode)) (A : List (Nat × Row × AggNode)) (C : List (Nat × List FRow))
    (V : List (Nat × Row × VStore)) : List (Nat × Row) :=
  N.map (fun p => (p.1, p.2.1)) ++ A.map (fun p => (p.1, p.2.1)) ++ variableOf (C.flatMap (·.2)) ++ V.map (fun p => (p.1, p.2.1))

/-- The parts of a program created from a model. -/
structure Created (M : Model) (big negBig : ℚ) (s : Built) (m : ColMap) (b : LpBuilder) (N : List (Nat × Row × TNode))
    (A : List (Nat × Row × AggNode)) (C : List (Nat × List FRow)) (V : List (Nat × Row × VStore)) : Prop where
  colMap : createColMap M.net = .ok m
  cols : m.build = some s.cols
  nodeRows : s.nodeRows = N.map (fun p => ⟨p.1, p.2.2.index, .continuous⟩)
  aggRows : s.aggRows = A.map (·.1)
  factorRows : s.factorRows = C.map (fun p => (p.1, p.2.map (·.2.2)))
  vsRows : s.vsRows = V.map (·.1)
  f64Max : b.f64Max = big
  f64NegMax : b.f64NegMax = negBig
  colLower : b.colLower = List.replicate m.colToEdges.length 0
  colUpper : b.colUpper = List.replicate m.colToEdges.length big
  colObj : b.colObj = List.replicate m.colToEdges.length 0
  colType : b.colType = List.replicate m.colToEdges.length .continuous
  ids : ∀ p ∈ named N A C V, b.rows[p.1]? = some p.2
  cover : ∀ i < b.rows.length, ∃ p ∈ named N A C V, p.1 = i
  nodeIs : ∀ p ∈ N, IsRow p.2.1 (fun x => nodeFlow (via m x) p.2.2)
  nodeList : N.map (·.2.2) = M.net.nodes.filter (fun n => (constBounds n (M.data n.index)).isNone)
  aggIs : ∀ p ∈ A, IsRow p.2.1 (fun x => aggFlow M.net (via m x) p.2.2)
  aggList : A.map (·.2.2) = M.aggs
  vsIs : ∀ p ∈ V, IsRow p.2.1 (fun x => -vsUse M.net (via m x) p.2.2)
  vsList : V.map (·.2.2) = M.vs
  facIs : ∀ p ∈ C, ∀ t ∈ p.2, factorRow m M.net t.1 = some t.2.1 ∧ (t.2.2 = none ↔ t.1.f0.isSome ∧ t.1.f1.isSome)
  facOf : ∀ p ∈ C, ∃ a F, M.aggs[p.1]? = some a ∧ a.factors = some F ∧ F.constPairs a.nodes = .ok (p.2.map (·.1))
  facAll : ∀ (j : Nat) (a : AggNode) F, M.aggs[j]? = some a → a.factors = some F → ∃ p ∈ C, p.1 = j
  facPairs : (C.flatMap (·.2)).map (·.1) = M.aggs.flatMap AggNode.setupPairs
  fixed : ∀ big x, (∀ r ∈ b.fixedRows, r.Holds big x) ↔ Balanced M.net (via m x) ∧
    (∀ n ∈ M.net.nodes, ∀ lo hi, constBounds n (M.data n.index) = some (lo, hi) →
      lo ≤ nodeFlow (via m x) n ∧ nodeFlow (via m x) n ≤ hi) ∧
    (∀ p ∈ C, ∀ t ∈ p.2, t.2.2 = none → t.2.1.Holds big x)

theorem fixedOf_hold (l : List FRow) (big : ℚ) (x : Nat → ℚ) :
    (∀ r ∈ fixedOf l, r.Holds big x) ↔ ∀ t ∈ l, t.2.2 = none → t.2.1.Holds big x := by
  unfold fixedOf
  simp only [List.mem_filterMap]
  constructor
  · intro h t ht hn
    exact h t.2.1 ⟨t, ht, by rw [if_pos hn]⟩
  · rintro h r ⟨t, ht, he⟩
    split_ifs at he with hn
    simp only [Option.some.injEq] at he
    subst he
    exact h t ht hn

/-- **Creation.** A valid model with at least one edge, no exclusivity and accepted factors gives a program. -/
theorem create_ok (M : Model) (hv : M.Valid) (hne : M.net.edges ≠ []) (hx : M.NoExclusivity) (hset : ∀ a ∈ M.aggs, SetupOk a)
    (big negBig : ℚ) : ∃ s m b N A C V, create M big negBig [] = .ok s ∧ s.lp = b.build ∧
      Created M big negBig s m b N A C V := by
  obtain ⟨tb, htb⟩ := hv.built
  have wf := wf_of_build tb M.net htb
  obtain ⟨m, hm, hinv, hall⟩ := createColMap_ok wf hne
  obtain ⟨m', cols, hm', hcols, hlen, hcol, _⟩ := C16_columns tb M.net htb hne
  rw [hm] at hm'; cases hm'
  have hhas : HasCols m M.net := by
    intro n hn e he
    obtain ⟨k, hk⟩ := List.mem_iff_getElem?.1 hn
    have : e < M.net.edges.length := by
      rcases he with he | he
      · rw [wf.incoming k n hk] at he
        obtain ⟨e', he', rfl⟩ := List.mem_map.1 he
        obtain ⟨j, hj⟩ := List.mem_iff_getElem?.1 (List.mem_of_mem_filter he')
        rw [(wf.index j e' hj).1]
        exact (List.getElem?_eq_some_iff.1 hj).1
      · rw [wf.outgoing k n hk] at he
        obtain ⟨e', he', rfl⟩ := List.mem_map.1 he
        obtain ⟨j, hj⟩ := List.mem_iff_getElem?.1 (List.mem_of_mem_filter he')
        rw [(wf.index j e' hj).1]
        exact (List.getElem?_eq_some_iff.1 hj).1
    obtain ⟨c, _, hc, _⟩ := hcol e this
    exact ⟨c, hc⟩
  have hb0 := addEdgeColumns_ok m.colToEdges.length (LpBuilder.new big negBig)
  obtain ⟨mb, h1, h2⟩ := createMassBalance_ok wf hinv hall M.net.nodes (fun _ h => h)
    (addEdgeColumns m.colToEdges.length (LpBuilder.new big negBig))
  obtain ⟨b1, F, N, n1, n2, n3, n4, n5⟩ := createNodeRows_ok m M.net hhas M.data M.net.nodes (fun _ h => h)
    { addEdgeColumns m.colToEdges.length (LpBuilder.new big negBig) with
      fixedRows := (addEdgeColumns m.colToEdges.length (LpBuilder.new big negBig)).fixedRows ++ mb } []
  obtain ⟨b2, A, a1, a2, a3, a4⟩ := createAggRows_ok m M.net hhas M.aggs hv.aggs b1 []
  obtain ⟨b3, C, c1, c2, c3, c4, c5, c6⟩ := createFactorRows_ok m M.net hhas M.aggs hv.aggs hset 0 b2 []
  obtain ⟨b4, V, v1, v2, v3, v4⟩ := createVsRows_ok m M.net hhas M.vs hv.vs b3 []
  have hx1 := createExclusivityRows_none [] M.aggs hx b4
  have hg := ((n2.trans a2).trans c2).trans v2
  have hrows0 : (addEdgeColumns m.colToEdges.length (LpBuilder.new big negBig)).rows = [] := by rw [hb0]; rfl
  have hfix0 : (addEdgeColumns m.colToEdges.length (LpBuilder.new big negBig)).fixedRows = [] := by rw [hb0]; rfl
  refine ⟨⟨b4.build, cols, [] ++ N.map (fun p => ⟨p.1, p.2.2.index, .continuous⟩), [] ++ C.map (fun p => (p.1, p.2.map (·.2.2))),
    [] ++ A.map (·.1), [] ++ V.map (·.1)⟩, m, b4, N, A, C, V, ?_, rfl, ?_⟩
  · simp only [create, hm, addBinaries, createRows, h1, n1, a1, c1, v1, hx1, hcols]
  · have hsame := hg.same
    refine ⟨hm, hcols, by simp, by simp, by simp, by simp, ?_, ?_, ?_, ?_, ?_, ?_, ?_, ?_, n3, n4, a3, a4, v3, v4, c3, ?_, ?_, c6, ?_⟩
    · rw [hsame, hb0]; rfl
    · rw [hsame, hb0]; rfl
    · rw [hsame, hb0]; rfl
    · rw [hsame, hb0]; rfl
    · rw [hsame, hb0]; rfl
    · rw [hsame, hb0]; rfl
    · exact hg.ids
    · intro i hi
      exact hg.cover i (by simp [hrows0]) hi
    · intro p hp
      obtain ⟨j, a, F, e1, e2, e3, e4⟩ := c4 p hp
      rw [Nat.zero_add] at e1
      exact ⟨a, F, by rw [e1]; exact e2, e3, e4⟩
    · intro j a F e1 e2
      obtain ⟨p, hp, e⟩ := c5 j a F e1 e2
      exact ⟨p, hp, by omega⟩
    · intro big' x
      rw [hg.fixed]
      simp only [hfix0, List.nil_append, List.append_nil, List.forall_mem_append, h2, n5, fixedOf_hold,
        List.mem_flatMap, forall_exists_index, and_imp]
      apply and_congr Iff.rfl
      apply and_congr Iff.rfl
      constructor
      · intro h p hp t ht hn; exact h t p hp ht hn
      · intro h t p hp ht hn; exact h p hp t ht hn

end Verif.Solver
