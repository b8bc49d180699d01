import Verif.Lemmas.Columns
import Verif.Props.Topology
import Mathlib.Tactic.IntervalCases

/-! # C16 (columns of edges) and C17 (mass balance rows) -/

namespace Verif.Solver

open Verif.State (NodeKind Edge)
open Verif.Topology (Network TNode Builder NodeDecl EdgeDecl)

/-- Every network built is well formed. -/
theorem wf_of_build (b : Builder) (net : Network) (h : b.build = .ok net) : WF net := by
  have hvalid := (Verif.Topology.C49_build_iff b).1 ⟨net, h⟩
  obtain ⟨hl, hel, hnodes, hedges⟩ := Verif.Topology.C49_topology b net h
  have hdecl : ∀ (k : Nat) (n : TNode), net.nodes[k]? = some n → ∃ d, b.nodes[k]? = some d ∧
      n = ⟨k, d.name, d.kind, Verif.Topology.edgesInto b d.name, Verif.Topology.edgesFrom b d.name,
        Verif.Topology.storagesOf b d.name⟩ := by
    intro k n hn
    have hk : k < b.nodes.length := by rw [← hl]; exact (List.getElem?_eq_some_iff.1 hn).1
    have hd := List.getElem?_eq_getElem hk
    have := hnodes k _ hd
    rw [hn] at this
    exact ⟨_, hd, by simpa using this⟩
  refine ⟨?_, ?_, ?_, ?_, ?_⟩
  · intro k e he
    have hk : k < b.edges.length := by rw [← hel]; exact (List.getElem?_eq_some_iff.1 he).1
    obtain ⟨f, t, h1, h2, h3⟩ := hedges k _ (List.getElem?_eq_getElem hk)
    rw [he] at h1
    simp only [Option.some.injEq] at h1
    subst h1
    refine ⟨rfl, ?_, ?_⟩
    · cases hf : b.nodes[f]? with
      | none => simp [hf] at h2
      | some d => rw [hl]; exact (List.getElem?_eq_some_iff.1 hf).1
    · cases ht : b.nodes[t]? with
      | none => simp [ht] at h3
      | some d => rw [hl]; exact (List.getElem?_eq_some_iff.1 ht).1
  · intro k n hn
    obtain ⟨d, _, rfl⟩ := hdecl k n hn
    rfl
  · intro k n hn; exact (Verif.Topology.C49_edges_of_nodes b net h k n hn).1
  · intro k n hn; exact (Verif.Topology.C49_edges_of_nodes b net h k n hn).2
  · intro n hn hlink
    obtain ⟨k, hk⟩ := List.mem_iff_getElem?.1 hn
    obtain ⟨d, hd, rfl⟩ := hdecl k n hk
    have := hvalid.connected d (List.mem_of_getElem? hd)
    simp only at hlink
    simpa [Verif.Topology.Connected, hlink] using this

/-! ## C16 -/

/-- **C16.** For every network that can be built and has an edge, creating the columns succeeds, every edge gets exactly one
column, every column stands for at least one edge, the two directions of the map agree, and two edges share a column only
if they are joined by a chain of links with one edge in and one edge out. -/
theorem C16_columns (b : Builder) (net : Network) (h : b.build = .ok net) (hne : net.edges ≠ []) :
    ∃ m cols, createColMap net = .ok m ∧ m.build = some cols ∧ cols.length = net.edges.length ∧
      (∀ e < net.edges.length, ∃ c, cols[e]? = some c ∧ m.col e = some c ∧ c < m.colToEdges.length) ∧
      (∀ c < m.colToEdges.length, ∃ e : Nat, cols[e]? = some c) ∧
      (∀ e c : Nat, cols[e]? = some c ↔ ∃ es, m.colToEdges[c]? = some es ∧ e ∈ es) ∧
      (∀ e e' c : Nat, cols[e]? = some c → cols[e']? = some c → SameChain net e e') := by
  have wf := wf_of_build b net h
  obtain ⟨m, h1, hinv, hall⟩ := createColMap_ok wf hne
  obtain ⟨cols, h2, h3, h4⟩ := build_ok hinv hne hall
  have hcol : ∀ e c : Nat, cols[e]? = some c ↔ m.edgeToCol.find e = some c := by
    intro e c
    constructor
    · intro hc
      have : e < net.edges.length := by rw [← h3]; exact (List.getElem?_eq_some_iff.1 hc).1
      rw [← h4 e this]; exact hc
    · intro hc
      rw [h4 e (hinv.bound e c hc)]; exact hc
  refine ⟨m, cols, h1, h2, h3, ?_, ?_, ?_, ?_⟩
  · intro e he
    obtain ⟨c, hc⟩ := hall e he
    obtain ⟨es, h5, _⟩ := hinv.fwd e c hc
    exact ⟨c, (hcol e c).2 hc, hc, (List.getElem?_eq_some_iff.1 h5).1⟩
  · intro c hc
    obtain ⟨hne, hmem⟩ := hinv.bwd c _ (List.getElem?_eq_getElem hc)
    obtain ⟨e, he⟩ := List.exists_mem_of_ne_nil _ hne
    exact ⟨e, (hcol e c).2 (hmem e he)⟩
  · intro e c
    rw [hcol]
    constructor
    · exact hinv.fwd e c
    · rintro ⟨es, h5, h6⟩
      exact (hinv.bwd c es h5).2 e h6
  · intro e e' c he he'
    exact hinv.chain e e' c ((hcol e c).1 he) ((hcol e' c).1 he')

/-- **C16 (flows).** Hence edges sharing a column carry the same flow in every flow that balances at the links. -/
theorem C16_shared_column_equal_flow (b : Builder) (net : Network) (h : b.build = .ok net) (m : ColMap) (cols : List Nat)
    (hm : createColMap net = .ok m) (hc : m.build = some cols) (f : Nat → ℚ) (hf : Balanced net f) (e e' : Nat) (c : Nat)
    (he : cols[e]? = some c) (he' : cols[e']? = some c) : f e = f e' := by
  have hne : net.edges ≠ [] := by
    intro h0
    unfold createColMap at hm
    rw [if_pos (by simp [h0])] at hm
    cases hm
  obtain ⟨m', cols', h1, h2, _, _, _, _, h7⟩ := C16_columns b net h hne
  rw [hm] at h1; cases h1
  rw [hc] at h2; cases h2
  exact hf.chain (h7 e e' c he he')

/-- **C16 (no edges).** A network without edges is rejected. -/
theorem C16_no_edges (net : Network) : net.edges = [] ↔ createColMap net = .error .noEdgesDefined := by
  unfold createColMap
  constructor
  · intro h; rw [if_pos (by simp [h])]
  · intro h
    by_contra hne
    have hpos := List.length_pos_iff.2 hne
    rw [if_neg (by omega)] at h
    have hstep : ∀ m e, columnStep net m e ≠ .error .noEdgesDefined := by
      intro m e he
      unfold columnStep at he
      split at he
      · simp at he
      · split at he
        · split_ifs at he
          · split at he <;> simp at he
          · simp at he
        · simp at he
    have : ∀ (es : List Edge) (m : ColMap), columnLoop net es m ≠ .error .noEdgesDefined := by
      intro es
      induction es with
      | nil => intro m hm; simp [columnLoop] at hm
      | cons e es ih =>
        intro m hm
        simp only [columnLoop] at hm
        cases hs : columnStep net m e with
        | error x =>
          simp only [hs, Except.error.injEq] at hm
          exact hstep m e (by rw [hs, hm])
        | ok m' => simp only [hs] at hm; exact ih m' hm
    exact this _ _ h

/-! ## C17 -/

/-- Column of an edge in a finished map. -/
def colOf (m : ColMap) (e : Nat) : Nat := (m.col e).getD 0

theorem addEdges_ok (m : ColMap) (k : ℚ) (es : List Nat) : ∀ r : Row, r.Sorted → (∀ e ∈ es, ∃ c, m.col e = some c) →
    ∃ r', addEdges m k es r = some r' ∧ r'.Sorted ∧ r'.lower = r.lower ∧ r'.upper = r.upper ∧
      (∀ x, value r'.columns x = value r.columns x + k * (es.map (fun e => x (colOf m e))).sum) ∧
      (∀ c, c ∈ r'.columns.map (·.1) ↔ c ∈ r.columns.map (·.1) ∨ ∃ e ∈ es, colOf m e = c) := by
  induction es with
  | nil => intro r hr _; exact ⟨r, rfl, hr, rfl, rfl, fun x => by simp, fun c => by simp⟩
  | cons e es ih =>
    intro r hr hall
    obtain ⟨c, hc⟩ := hall e (by simp)
    have hcol : colOf m e = c := by simp [colOf, hc]
    obtain ⟨r', h1, h2, hlo, hup, h3, h4⟩ := ih (r.addElement c k) (r.sorted_addElement _ _ hr)
      (fun e' he' => hall e' (List.mem_cons_of_mem _ he'))
    refine ⟨r', by simp only [addEdges, hc, h1], h2, hlo, hup, fun x => ?_, fun d => ?_⟩
    · rw [h3, r.value_addElement _ _ _ hr]
      simp only [List.map_cons, List.sum_cons, hcol]
      ring
    · rw [h4]
      unfold Row.addElement
      simp only [keys_insert, List.mem_cons, exists_eq_or_imp, hcol]
      constructor
      · rintro ((h | h) | h)
        · exact Or.inr (Or.inl h.symm)
        · exact Or.inl h
        · exact Or.inr (Or.inr h)
      · rintro (h | h | h)
        · exact Or.inl (Or.inr h)
        · exact Or.inl (Or.inl h.symm)
        · exact Or.inr h

/-- A link all of whose edges share one column has one edge in and one edge out. -/
theorem one_column {net : Network} (wf : WF net) {m : ColMap} (hinv : ColInv net m) {n : TNode} (hn : n ∈ net.nodes)
    (hlink : n.kind = .link) (c : Nat) (hc : ∀ e, e ∈ n.incoming ∨ e ∈ n.outgoing → m.col e = some c) :
    ∃ i o, n.incoming = [i] ∧ n.outgoing = [o] := by
  obtain ⟨hi, ho⟩ := wf.links n hn hlink
  by_contra hcon
  -- edges in and out are then ends and starts of chains
  have hin : ∀ e ∈ n.incoming, ∀ c', ¬ PassThrough net e c' := by
    rintro e he c' ⟨n', hn', _, h1, h2⟩
    have := wf.incoming_unique hn hn' he (by rw [h1]; simp)
    subst this
    exact hcon ⟨e, c', h1, h2⟩
  have hout : ∀ e ∈ n.outgoing, ∀ c', ¬ PassThrough net c' e := by
    rintro e he c' ⟨n', hn', _, h1, h2⟩
    have := wf.outgoing_unique hn hn' he (by rw [h2]; simp)
    subst this
    exact hcon ⟨c', e, h1, h2⟩
  have hsingle : ∀ l : List Nat, l ≠ [] → l.Nodup → (∀ a ∈ l, ∀ b ∈ l, a = b) → ∃ a, l = [a] := by
    intro l h1 h2 h3
    match l, h1, h2, h3 with
    | [a], _, _, _ => exact ⟨a, rfl⟩
    | a :: b :: l, _, h2, h3 =>
      have := h3 a (by simp) b (by simp)
      subst this
      simp at h2
  obtain ⟨i, hi'⟩ := hsingle n.incoming hi (wf.incoming_nodup hn) (fun a ha b hb =>
    wf.chain_end_unique (hinv.chain a b c (hc a (Or.inl ha)) (hc b (Or.inl hb))) (hin a ha) (hin b hb))
  obtain ⟨o, ho'⟩ := hsingle n.outgoing ho (wf.outgoing_nodup hn) (fun a ha b hb =>
    wf.chain_start_unique (hinv.chain a b c (hc a (Or.inr ha)) (hc b (Or.inr hb))) (hout a ha) (hout b hb))
  exact hcon ⟨i, o, hi', ho'⟩

theorem massBalanceRow_ok {net : Network} (wf : WF net) {m : ColMap} (hinv : ColInv net m)
    (hall : ∀ e < net.edges.length, ∃ c, m.edgeToCol.find e = some c) {n : TNode} (hn : n ∈ net.nodes) :
    ∃ o, massBalanceRow m n = some o ∧
      ∀ (big : ℚ) (x : Nat → ℚ), (∀ r, o = some r → r.Holds big x) ↔
        (n.kind = .link → (n.incoming.map (fun e => x (colOf m e))).sum = (n.outgoing.map (fun e => x (colOf m e))).sum) := by
  unfold massBalanceRow
  by_cases hlink : n.kind = .link
  · obtain ⟨hi, ho⟩ := wf.links n hn hlink
    obtain ⟨k, hk⟩ := List.mem_iff_getElem?.1 hn
    have hcin : ∀ e ∈ n.incoming, ∃ c, m.col e = some c := by
      intro e he
      obtain ⟨ed, h1, _⟩ := (wf.mem_incoming hk e).1 he
      exact hall e (List.getElem?_eq_some_iff.1 h1).1
    have hcout : ∀ e ∈ n.outgoing, ∃ c, m.col e = some c := by
      intro e he
      obtain ⟨ed, h1, _⟩ := (wf.mem_outgoing hk e).1 he
      exact hall e (List.getElem?_eq_some_iff.1 h1).1
    obtain ⟨r1, a1, a2, _, _, a3, a4⟩ := addEdges_ok m 1 n.incoming Row.default Row.sorted_default hcin
    obtain ⟨r2, b1, b2, _, _, b3, b4⟩ := addEdges_ok m (-1) n.outgoing r1 a2 hcout
    have hkeys : ∀ c, c ∈ r2.columns.map (·.1) ↔ (∃ e, (e ∈ n.incoming ∨ e ∈ n.outgoing) ∧ colOf m e = c) := by
      intro c
      rw [b4, a4]
      simp only [Row.default, List.map_nil, List.not_mem_nil, false_or]
      constructor
      · rintro (⟨e, he, h⟩ | ⟨e, he, h⟩)
        · exact ⟨e, Or.inl he, h⟩
        · exact ⟨e, Or.inr he, h⟩
      · rintro ⟨e, he | he, h⟩
        · exact Or.inl ⟨e, he, h⟩
        · exact Or.inr ⟨e, he, h⟩
    have hval : ∀ x, value r2.columns x = (n.incoming.map (fun e => x (colOf m e))).sum
        - (n.outgoing.map (fun e => x (colOf m e))).sum := by
      intro x
      rw [b3, a3]
      simp only [Row.default, value, List.map_nil, List.sum_nil]
      ring
    simp only [hlink, List.isEmpty_iff, hi, ho, if_false, a1, b1]
    have hne : r2.columns ≠ [] := by
      obtain ⟨e, he⟩ := List.exists_mem_of_ne_nil _ hi
      intro h0
      have := (hkeys (colOf m e)).2 ⟨e, Or.inl he, rfl⟩
      rw [h0] at this; simp at this
    rw [if_neg hne]
    split_ifs with hone
    · refine ⟨none, rfl, fun big x => ?_⟩
      simp only [reduceCtorEq, false_implies, implies_true, true_iff]
      obtain ⟨p, hp⟩ := List.length_eq_one_iff.1 hone
      have hsame : ∀ e, e ∈ n.incoming ∨ e ∈ n.outgoing → m.col e = some p.1 := by
        intro e he
        have h1 : colOf m e = p.1 := by
          have := (hkeys (colOf m e)).2 ⟨e, he, rfl⟩
          rw [hp] at this
          simpa using this
        obtain ⟨c, hc⟩ : ∃ c, m.col e = some c := he.elim (hcin e) (hcout e)
        rw [← h1]; simp [colOf, hc]
      obtain ⟨i, o, h1, h2⟩ := one_column wf hinv hn hlink p.1 hsame
      have e1 : colOf m i = p.1 := by simp [colOf, hsame i (Or.inl (by rw [h1]; simp))]
      have e2 : colOf m o = p.1 := by simp [colOf, hsame o (Or.inr (by rw [h2]; simp))]
      simp [h1, h2, e1, e2]
    · refine ⟨_, rfl, fun big x => ?_⟩
      simp only [Option.some.injEq, forall_eq', Row.Holds, Row.setLower, Row.setUpper, Option.getD_some, hval]
      constructor
      · rintro ⟨h1, h2⟩ _; linarith
      · intro h
        have := h trivial
        constructor <;> linarith
  · refine ⟨none, ?_, fun big x => ?_⟩
    · cases hk : n.kind <;> simp_all
    · simp [hlink]

theorem createMassBalance_ok {net : Network} (wf : WF net) {m : ColMap} (hinv : ColInv net m)
    (hall : ∀ e < net.edges.length, ∃ c, m.edgeToCol.find e = some c) (ns : List TNode) : (∀ n ∈ ns, n ∈ net.nodes) →
    ∀ lb : LpBuilder, ∃ rows, createMassBalance m ns lb = some { lb with fixedRows := lb.fixedRows ++ rows } ∧
      ∀ (big : ℚ) (x : Nat → ℚ), (∀ r ∈ rows, r.Holds big x) ↔ ∀ n ∈ ns, n.kind = .link →
        (n.incoming.map (fun e => x (colOf m e))).sum = (n.outgoing.map (fun e => x (colOf m e))).sum := by
  induction ns with
  | nil => intro _ lb; exact ⟨[], by simp [createMassBalance], by simp⟩
  | cons n ns ih =>
    intro hns lb
    obtain ⟨o, h1, h2⟩ := massBalanceRow_ok wf hinv hall (hns n (by simp))
    have hns' : ∀ n' ∈ ns, n' ∈ net.nodes := fun n' h => hns n' (List.mem_cons_of_mem _ h)
    cases o with
    | none =>
      obtain ⟨rows, h3, h4⟩ := ih hns' lb
      refine ⟨rows, by simp only [createMassBalance, h1, h3], fun big x => ?_⟩
      rw [h4 big x, List.forall_mem_cons]
      have := (h2 big x).1 (by simp)
      exact ⟨fun h => ⟨this, h⟩, fun h => h.2⟩
    | some r =>
      obtain ⟨rows, h3, h4⟩ := ih hns' (lb.addFixedRow r)
      refine ⟨r :: rows, ?_, fun big x => ?_⟩
      · simp only [createMassBalance, h1]
        rw [h3]
        simp [LpBuilder.addFixedRow]
      · rw [List.forall_mem_cons, List.forall_mem_cons, h4 big x]
        have := h2 big x
        simp only [Option.some.injEq, forall_eq'] at this
        rw [this]

/-- **C17.** For every network that can be built and has an edge, creating the mass balance rows succeeds, only appends fixed
rows, and values of the columns satisfy those rows exactly if the flows they give to the edges balance at every link –
including the links for which no row is made. -/
theorem C17_mass_balance (b : Builder) (net : Network) (h : b.build = .ok net) (m : ColMap) (hm : createColMap net = .ok m)
    (lb : LpBuilder) :
    ∃ rows, createMassBalance m net.nodes lb = some { lb with fixedRows := lb.fixedRows ++ rows } ∧
      ∀ (big : ℚ) (x : Nat → ℚ), (∀ r ∈ rows, r.Holds big x) ↔ Balanced net (fun e => x (colOf m e)) := by
  have wf := wf_of_build b net h
  have hne : net.edges ≠ [] := fun h0 => by rw [(C16_no_edges net).1 h0] at hm; cases hm
  obtain ⟨m', h1, hinv, hall⟩ := createColMap_ok wf hne
  rw [hm] at h1; cases h1
  exact createMassBalance_ok wf hinv hall net.nodes (fun _ h => h) lb

/-- **C17 (nothing lost).** Every flow that balances at all links is given by some values of the columns, each of which is
the flow of an edge (so the values are non-negative if the flows are). -/
theorem C17_representable (b : Builder) (net : Network) (h : b.build = .ok net) (m : ColMap) (hm : createColMap net = .ok m)
    (f : Nat → ℚ) (hf : Balanced net f) :
    ∃ x : Nat → ℚ, (∀ e < net.edges.length, x (colOf m e) = f e) ∧
      ∀ c < m.colToEdges.length, ∃ e < net.edges.length, x c = f e := by
  have wf := wf_of_build b net h
  have hne : net.edges ≠ [] := fun h0 => by rw [(C16_no_edges net).1 h0] at hm; cases hm
  obtain ⟨m', h1, hinv, hall⟩ := createColMap_ok wf hne
  rw [hm] at h1; cases h1
  refine ⟨fun c => f (((m.colToEdges[c]?).getD []).headD 0), fun e he => ?_, fun c hc => ?_⟩
  · obtain ⟨c, hc⟩ := hall e he
    obtain ⟨es, h2, h3⟩ := hinv.fwd e c hc
    have hcol : colOf m e = c := by simp [colOf, ColMap.col, hc]
    simp only [hcol, h2, Option.getD_some]
    cases es with
    | nil => simp at h3
    | cons e0 es =>
      have := (hinv.bwd c _ h2).2 e0 (by simp)
      exact hf.chain (hinv.chain e0 e c this hc)
  · have h2 := List.getElem?_eq_getElem hc
    obtain ⟨h3, h4⟩ := hinv.bwd c _ h2
    obtain ⟨e, es, he⟩ := List.exists_cons_of_ne_nil h3
    refine ⟨e, hinv.bound e c (h4 e (by rw [he]; simp)), ?_⟩
    simp [h2, he]

/-! ## A network with chains, a split and a loop -/

/-- in → l1 → l2 → out, l2 splits to l3 which returns to l1... -/
def chainNet : Builder :=
  { nodes := [⟨("in", none), .input⟩, ⟨("a", none), .link⟩, ⟨("b", none), .link⟩, ⟨("c", none), .link⟩, ⟨("out", none), .output⟩,
      ⟨("r", none), .link⟩]
    edges := [⟨("b", none), ("c", none)⟩, ⟨("in", none), ("a", none)⟩, ⟨("a", none), ("b", none)⟩, ⟨("c", none), ("out", none)⟩,
      ⟨("c", none), ("r", none)⟩, ⟨("r", none), ("c", none)⟩]
    vs := [] }

example : ∃ net m, chainNet.build = .ok net ∧ createColMap net = .ok m ∧ m.build = some [0, 1, 0, 2, 3, 3] :=
  ⟨_, _, rfl, rfl, by decide⟩

/-- The chain `in → a → b` is not joined completely: edge 1 keeps its own column although it always equals edge 2. The mass
balance row of `a` restores the equality. -/
example : ∃ net m, chainNet.build = .ok net ∧ createColMap net = .ok m ∧
    (createMassBalance m net.nodes (LpBuilder.new 100 (-100))).map (fun b => b.fixedRows.map (·.columns))
      = some [[(0, -1), (1, 1)], [(0, 1), (2, -1), (3, 0)]] :=
  ⟨_, _, rfl, rfl, by decide +kernel⟩

end Verif.Solver
