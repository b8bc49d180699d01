import Verif.Spec.IpmLp
import Verif.Lemmas.IpmLpMatrix
import Verif.Lemmas.SolverFlow
import Verif.Props.Columns

/-! # Creation of the program of the interior point solver -/

namespace Verif.IpmLp

open Verif.State (NodeKind Edge)
open Verif.Topology (Network TNode)
open Verif.Solver (OMap ColMap createColMap SetupErr addEdges addNode NodeData StepState Metric valueOr f64MAX edgeCost Model value
  nodeFlow via HasCols colOf Balanced WF ColInv edgesOf)

/-- Row `i` of a list has the value `g`. -/
def IsAt (I : List Cols) (i : Nat) (g : (Nat → ℚ) → ℚ) : Prop := ∃ r, I[i]? = some r ∧ ∀ x, value r x = g x

theorem IsAt.grow {I J : List Cols} {i : Nat} {g : (Nat → ℚ) → ℚ} (h : IsAt I i g) : IsAt (I ++ J) i g := by
  obtain ⟨r, h1, h2⟩ := h
  exact ⟨r, by rw [List.getElem?_append_left (List.getElem?_eq_some_iff.1 h1).1]; exact h1, h2⟩

/-- The ids name the rows of the nodes, in order. -/
def Named (m : ColMap) (data : Nat → NodeData) (I : List Cols) : List TNode → List Nat → Prop
  | [], ids => ids = []
  | n :: ns, ids =>
    if n.kind = .storage then
      ∃ i j rest, ids = i :: j :: rest ∧ IsAt I i (fun x => nodeFlow (via m x) n) ∧ IsAt I j (fun x => -nodeFlow (via m x) n) ∧
        Named m data I ns rest
    else if (data n.index).maxFlow = none then Named m data I ns ids
    else ∃ i rest, ids = i :: rest ∧ IsAt I i (fun x => nodeFlow (via m x) n) ∧ Named m data I ns rest

theorem position_some (row : Cols) : ∀ (l : List Cols) (i : Nat), position row l = some i → l[i]? = some row := by
  intro l
  induction l with
  | nil => intro i h; simp [position] at h
  | cons r l ih =>
    intro i h
    simp only [position] at h
    split_ifs at h with he
    · simp only [Option.some.injEq] at h; subst h; simp [he]
    · obtain ⟨j, hj, rfl⟩ := Option.map_eq_some_iff.1 h
      simpa using ih j hj

/-- Adding an inequality keeps the rows there are, and adds at most the new one. -/
theorem addUpper_ok (b : Builder) (row : Cols) : ∃ new, (b.addUpper row).2 = ⟨b.inequality ++ new, b.equality⟩ ∧
    (b.inequality ++ new)[(b.addUpper row).1]? = some row ∧
    ∀ P : Cols → Prop, (∀ r ∈ b.inequality ++ new, P r) ↔ (∀ r ∈ b.inequality, P r) ∧ P row := by
  unfold Builder.addUpper
  cases h : position row b.inequality with
  | some i =>
    have hp := position_some row _ i h
    refine ⟨[], by simp, by simpa using hp, fun P => ?_⟩
    rw [List.append_nil]
    exact ⟨fun hP => ⟨hP, hP row (List.mem_of_getElem? hp)⟩, fun hP => hP.1⟩
  | none =>
    refine ⟨[row], rfl, by simp, fun P => ?_⟩
    rw [List.forall_mem_append, List.forall_mem_singleton]

theorem value_negative (r : Cols) (x : Nat → ℚ) : value (negative r) x = -value r x := by
  unfold value negative
  induction r with
  | nil => simp
  | cons p r ih =>
    simp only [List.map_cons, List.sum_cons] at ih ⊢
    rw [ih]; ring

theorem keys_negative (r : Cols) : (negative r).map (·.1) = r.map (·.1) := by
  unfold negative; rw [List.map_map]; rfl

/-- What a node asks of every row it adds. -/
def Asks (m : ColMap) (data : Nat → NodeData) (n : TNode) (P : Cols → Prop) : Prop :=
  (n.kind = .storage ∨ (data n.index).maxFlow ≠ none) → ∀ r, addNode m n 1 Solver.Row.default = some r →
    P r.columns ∧ (n.kind = .storage → P (negative r.columns))

theorem nodeRows_ok (m : ColMap) (net : Network) (hm : HasCols m net) (data : Nat → NodeData) (ns : List TNode) :
    (∀ n ∈ ns, n ∈ net.nodes) → ∀ b : Builder, ∃ ids new,
      nodeRows m data ns b = some (ids, ⟨b.inequality ++ new, b.equality⟩) ∧
      (∀ more, Named m data (b.inequality ++ new ++ more) ns ids) ∧
      ∀ P : Cols → Prop, (∀ r ∈ b.inequality ++ new, P r) ↔ (∀ r ∈ b.inequality, P r) ∧ ∀ n ∈ ns, Asks m data n P := by
  induction ns with
  | nil => intro _ b; exact ⟨[], [], by simp [nodeRows], fun more => by simp [Named], fun P => by simp⟩
  | cons n ns ih =>
    intro hns b
    rw [List.forall_mem_cons] at hns
    obtain ⟨r, h1, h2, -, -, h5⟩ := Verif.Solver.addNode_ok m n (hm n hns.1) 1 Solver.Row.default Solver.Row.sorted_default
    have hv : ∀ x, value r.columns x = nodeFlow (via m x) n := by
      intro x; rw [h5]; simp [Solver.Row.default, value]
    obtain ⟨n1, a1, a2, a3⟩ := addUpper_ok b r.columns
    by_cases hk : n.kind = .storage
    · obtain ⟨n2, b1, b2, b3⟩ := addUpper_ok ⟨b.inequality ++ n1, b.equality⟩ (negative r.columns)
      obtain ⟨ids, n3, c1, c2, c3⟩ := ih hns.2 ⟨b.inequality ++ n1 ++ n2, b.equality⟩
      refine ⟨(b.addUpper r.columns).1 :: ((b.addUpper r.columns).2.addUpper (negative r.columns)).1 :: ids, n1 ++ n2 ++ n3, ?_, ?_, ?_⟩
      · simp only [nodeRows, hk, h1, a1, b1, c1]
        simp only [List.append_assoc]
      · intro more
        unfold Named
        rw [if_pos hk]
        refine ⟨_, _, ids, rfl, ?_, ?_, ?_⟩
        · have : IsAt (b.inequality ++ n1) (b.addUpper r.columns).1 (fun x => nodeFlow (via m x) n) := ⟨_, a2, hv⟩
          have := (this.grow (J := n2 ++ (n3 ++ more)))
          simpa [List.append_assoc] using this
        · rw [a1]
          have : IsAt (b.inequality ++ n1 ++ n2) (Builder.addUpper ⟨b.inequality ++ n1, b.equality⟩ (negative r.columns)).1
            (fun x => -nodeFlow (via m x) n) := ⟨_, b2, fun x => by rw [value_negative, hv]⟩
          have := (this.grow (J := n3 ++ more))
          simpa [List.append_assoc] using this
        · have := c2 more
          simpa [List.append_assoc] using this
      · intro P
        have := c3 P
        rw [show b.inequality ++ (n1 ++ n2 ++ n3) = b.inequality ++ n1 ++ n2 ++ n3 by simp [List.append_assoc], this, b3 P, a3 P,
          List.forall_mem_cons]
        have hasks : Asks m data n P ↔ P r.columns ∧ P (negative r.columns) := by
          unfold Asks
          constructor
          · intro h; have := h (Or.inl hk) r h1; exact ⟨this.1, this.2 hk⟩
          · rintro ⟨p1, p2⟩ _ r' hr'
            rw [h1] at hr'; cases hr'
            exact ⟨p1, fun _ => p2⟩
        rw [hasks]
        simp only [and_assoc]
    · by_cases hq : (data n.index).maxFlow = none
      · obtain ⟨ids, n3, c1, c2, c3⟩ := ih hns.2 b
        refine ⟨ids, n3, ?_, ?_, ?_⟩
        · have hun : maxFlowUnconstrained (data n.index) = true := by unfold maxFlowUnconstrained; rw [hq]; rfl
          rw [nodeRows]
          cases hkk : n.kind with
          | storage => exact absurd hkk hk
          | input => simp only [hun, if_true]; exact c1
          | link => simp only [hun, if_true]; exact c1
          | output => simp only [hun, if_true]; exact c1
        · intro more
          unfold Named
          rw [if_neg hk, if_pos hq]
          exact c2 more
        · intro P
          rw [c3 P, List.forall_mem_cons]
          have : Asks m data n P := by
            intro h; rcases h with h | h
            · exact absurd h hk
            · exact absurd hq h
          simp [this]
      · obtain ⟨ids, n3, c1, c2, c3⟩ := ih hns.2 ⟨b.inequality ++ n1, b.equality⟩
        refine ⟨(b.addUpper r.columns).1 :: ids, n1 ++ n3, ?_, ?_, ?_⟩
        · have hun : maxFlowUnconstrained (data n.index) = false := by
            unfold maxFlowUnconstrained
            cases h : (data n.index).maxFlow with
            | none => exact absurd h hq
            | some _ => rfl
          rw [nodeRows]
          cases hkk : n.kind with
          | storage => exact absurd hkk hk
          | input => simp only [hun, h1, a1, c1, List.append_assoc]; rfl
          | link => simp only [hun, h1, a1, c1, List.append_assoc]; rfl
          | output => simp only [hun, h1, a1, c1, List.append_assoc]; rfl
        · intro more
          unfold Named
          rw [if_neg hk, if_neg hq]
          refine ⟨_, ids, rfl, ?_, ?_⟩
          · have : IsAt (b.inequality ++ n1) (b.addUpper r.columns).1 (fun x => nodeFlow (via m x) n) := ⟨_, a2, hv⟩
            have := (this.grow (J := n3 ++ more))
            simpa [List.append_assoc] using this
          · have := c2 more
            simpa [List.append_assoc] using this
        · intro P
          have := c3 P
          rw [show b.inequality ++ (n1 ++ n3) = b.inequality ++ n1 ++ n3 by simp [List.append_assoc], this, a3 P, List.forall_mem_cons]
          have hasks : Asks m data n P ↔ P r.columns := by
            unfold Asks
            constructor
            · intro h; exact (h (Or.inr hq) r h1).1
            · intro p1 _ r' hr'
              rw [h1] at hr'; cases hr'
              exact ⟨p1, fun h => absurd h hk⟩
          rw [hasks]
          simp only [and_assoc]

theorem massRow_eq {net : Network} (wf : WF net) (m : ColMap) {n : TNode} (hn : n ∈ net.nodes) :
    massRow m n = (Solver.massBalanceRow m n).map (·.map (·.columns)) := by
  unfold massRow Solver.massBalanceRow
  cases hk : n.kind with
  | link =>
    obtain ⟨hi, ho⟩ := wf.links n hn hk
    simp only [List.isEmpty_iff, hi, ho, if_false]
    cases h1 : addEdges m 1 n.incoming Solver.Row.default with
    | none => simp
    | some r =>
      simp only
      cases h2 : addEdges m (-1) n.outgoing r with
      | none => simp
      | some r2 =>
        simp only
        split_ifs <;> simp [Solver.Row.setUpper, Solver.Row.setLower]
  | input => simp
  | output => simp
  | storage => simp

theorem massRows_ok {net : Network} (wf : WF net) {m : ColMap} (hinv : ColInv net m)
    (hall : ∀ e < net.edges.length, ∃ c, m.edgeToCol.find e = some c) (ns : List TNode) : (∀ n ∈ ns, n ∈ net.nodes) →
    ∀ b : Builder, ∃ rows, massRows m ns b = some ⟨b.inequality, b.equality ++ rows⟩ ∧
      (∀ x, (∀ r ∈ rows, value r x = 0) ↔ ∀ n ∈ ns, n.kind = .link →
        (n.incoming.map (via m x)).sum = (n.outgoing.map (via m x)).sum) ∧
      ∀ r ∈ rows, r ≠ [] ∧ (r.map (·.1)).Pairwise (· < ·) ∧ ∀ p ∈ r, ∃ e, m.col e = some p.1 := by
  induction ns with
  | nil => intro _ b; exact ⟨[], by simp [massRows], by simp, by simp⟩
  | cons n ns ih =>
    intro hns b
    rw [List.forall_mem_cons] at hns
    obtain ⟨o, h1, h2⟩ := Solver.massBalanceRow_ok wf hinv hall hns.1
    have hr := massRow_eq wf m hns.1
    rw [h1] at hr
    cases o with
    | none =>
      obtain ⟨rows, h3, h4, h5⟩ := ih hns.2 b
      refine ⟨rows, ?_, fun x => ?_, h5⟩
      · simp only [massRows, hr, Option.map_some, Option.map_none, h3]
      · rw [h4 x, List.forall_mem_cons]
        have := (h2 0 x).1 (by simp)
        exact ⟨fun h => ⟨this, h⟩, fun h => h.2⟩
    | some r =>
      obtain ⟨rows, h3, h4, h5⟩ := ih hns.2 (b.addFixed r.columns)
      refine ⟨r.columns :: rows, ?_, fun x => ?_, ?_⟩
      · simp only [massRows, hr, Option.map_some, h3]
        simp [Builder.addFixed]
      · rw [List.forall_mem_cons, List.forall_mem_cons, h4 x, ← h2 0 x]
        have hb : r.lower = 0 ∧ r.upper = some 0 := by
          unfold Solver.massBalanceRow at h1
          split at h1
          · split_ifs at h1
            split at h1
            · simp at h1
            · split at h1
              · simp at h1
              · split_ifs at h1 <;> simp_all [Solver.Row.setUpper, Solver.Row.setLower]
                obtain rfl := h1
                simp
          · simp at h1
        simp only [Option.some.injEq, forall_eq', Solver.Row.Holds, hb.1, hb.2, Option.getD_some]
        apply and_congr _ Iff.rfl
        constructor
        · intro h; constructor <;> linarith
        · rintro ⟨a, b⟩; linarith
      · rw [List.forall_mem_cons]
        refine ⟨?_, h5⟩
        unfold massRow at hr
        split at hr
        · split at hr
          · simp at hr
          · rename_i r1 hr1
            split at hr
            · simp at hr
            · rename_i r2 hr2
              have hin : ∀ e ∈ n.incoming, ∃ c, m.col e = some c := fun e he =>
                hall e (Solver.edges_in_range (M := ⟨net, fun _ => ⟨none, none, none, none, none, none⟩, [], []⟩) wf n hns.1 e (Or.inl he))
              have hout : ∀ e ∈ n.outgoing, ∃ c, m.col e = some c := fun e he =>
                hall e (Solver.edges_in_range (M := ⟨net, fun _ => ⟨none, none, none, none, none, none⟩, [], []⟩) wf n hns.1 e (Or.inr he))
              obtain ⟨r1', a1, a2, -⟩ := Solver.addEdges_ok m 1 n.incoming Solver.Row.default Solver.Row.sorted_default hin
              rw [hr1] at a1; cases a1
              obtain ⟨r2', b1, b2, -⟩ := Solver.addEdges_ok m (-1) n.outgoing r1 a2 hout
              rw [hr2] at b1; cases b1
              split_ifs at hr with g1 g2
              · simp at hr
              · simp at hr
              · simp only [Option.map_some, Option.some.injEq] at hr
                rw [← hr]
                refine ⟨by simpa [List.isEmpty_iff] using g1, b2, fun p hp => ?_⟩
                have := (Solver.addEdges_keys m _ _ r1 r2 hr2 p.1).1 (List.mem_map_of_mem hp)
                rcases this with h | ⟨e, _, h⟩
                · rcases (Solver.addEdges_keys m _ _ _ r1 hr1 p.1).1 h with h | ⟨e, _, h⟩
                  · simp [Solver.Row.default] at h
                  · exact ⟨e, h⟩
                · exact ⟨e, h⟩
        · simp at hr

/-- The program created for a model, and what updates keep of it. -/
structure Created (M : Model) (s : Built) (m : ColMap) (I E : List Cols) : Prop where
  colMap : createColMap M.net = .ok m
  cols : m.build = some s.cols
  ineq : s.lp.inequality = ofRows I
  eq : s.lp.equality = ofRows E
  numCols : s.lp.numCols = m.colToEdges.length
  upLen : s.lp.rowUpper.length = E.length + I.length
  objLen : s.lp.colObj.length = m.colToEdges.length
  upZero : ∀ i v, I.length ≤ i → s.lp.rowUpper[i]? = some v → v = fun _ => 0
  named : Named m M.data I M.net.nodes s.rowIds
  asks : ∀ P : Cols → Prop, (∀ r ∈ I, P r) ↔ ∀ n ∈ M.net.nodes, Asks m M.data n P
  mass : ∀ x, (∀ r ∈ E, value r x = 0) ↔ Balanced M.net (via m x)
  massKeys : ∀ r ∈ E, r ≠ [] ∧ (r.map (·.1)).Pairwise (· < ·) ∧ ∀ p ∈ r, ∃ e, m.col e = some p.1
  made : massRows m M.net.nodes ⟨[], []⟩ = some ⟨[], E⟩

theorem cols_of (M : Model) (hv : M.Valid) {m : ColMap} (h : createColMap M.net = .ok m) :
    M.net.edges ≠ [] ∧ ColInv M.net m ∧ (∀ e < M.net.edges.length, ∃ c, m.edgeToCol.find e = some c) ∧
    ∃ cols, m.build = some cols ∧ cols.length = M.net.edges.length ∧ ∀ e < M.net.edges.length, cols[e]? = m.edgeToCol.find e := by
  have hne : M.net.edges ≠ [] := fun h0 => by
    rw [(Solver.C16_no_edges M.net).1 h0] at h; cases h
  obtain ⟨m', h1, hinv, hall⟩ := Solver.createColMap_ok (Solver.Created.wf hv) hne
  rw [h] at h1; cases h1
  exact ⟨hne, hinv, hall, Solver.build_ok hinv hne hall⟩

theorem hasCols_of (M : Model) (hv : M.Valid) {m : ColMap} (h : createColMap M.net = .ok m) : HasCols m M.net := by
  obtain ⟨_, _, hall, _⟩ := cols_of M hv h
  intro n hn e he
  exact hall e (Solver.edges_in_range (Solver.Created.wf hv) n hn e he)

theorem create_ok (M : Model) (hv : M.Valid) (hne : M.net.edges ≠ []) : ∃ s m I E, create M = .ok s ∧ Created M s m I E := by
  have wf := Solver.Created.wf hv
  obtain ⟨m, h1, hinv, hall⟩ := Solver.createColMap_ok wf hne
  obtain ⟨cols, h2, h3, h4⟩ := Solver.build_ok hinv hne hall
  obtain ⟨E, e1, e2, e3⟩ := massRows_ok wf hinv hall M.net.nodes (fun _ h => h) ⟨[], []⟩
  obtain ⟨ids, I, i1, i2, i3⟩ := nodeRows_ok m M.net (hasCols_of M hv h1) M.data M.net.nodes (fun _ h => h) ⟨[], [] ++ E⟩
  simp only [List.nil_append] at e1 i1 i2 i3
  refine ⟨⟨Builder.build ⟨I, E⟩ m.colToEdges.length, cols, ids⟩, m, I, E, ?_, ?_⟩
  · simp only [create, h1, e1, i1, h2]
  · refine ⟨h1, h2, foldl_default I, foldl_default E, rfl, by simp [Builder.build], by simp [Builder.build], ?_, ?_, ?_, e2, e3, e1⟩
    · intro i v _ hg
      simp only [Builder.build, List.getElem?_replicate] at hg
      split_ifs at hg
      exact (Option.some.inj hg).symm
    · have := i2 []
      simpa using this
    · intro P
      rw [i3 P]; simp

end Verif.IpmLp
