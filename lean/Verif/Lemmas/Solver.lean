import Verif.Spec.Solver
import Verif.Props.Columns
import Verif.Props.Lp
import Verif.Props.Factors

/-! # Lemmas on creating and updating the program -/

namespace Verif.Solver

open Verif.State (NodeKind Edge)
open Verif.Topology (Network TNode)

/-! ## Rows of nodes -/

theorem nodeFlow_congr {f g : Nat → ℚ} (n : TNode) (h : ∀ e, e ∈ n.incoming ∨ e ∈ n.outgoing → f e = g e) :
    nodeFlow f n = nodeFlow g n := by
  have h1 : n.incoming.map f = n.incoming.map g := List.map_congr_left (fun e he => h e (Or.inl he))
  have h2 : n.outgoing.map f = n.outgoing.map g := List.map_congr_left (fun e he => h e (Or.inr he))
  unfold nodeFlow
  rw [h1, h2]

theorem addNode_ok (m : ColMap) (n : TNode) (hcols : ∀ e, e ∈ n.incoming ∨ e ∈ n.outgoing → ∃ c, m.col e = some c)
    (k : ℚ) (r : Row) (hr : r.Sorted) :
    ∃ r', addNode m n k r = some r' ∧ r'.Sorted ∧ r'.lower = r.lower ∧ r'.upper = r.upper ∧
      ∀ x, value r'.columns x = value r.columns x + k * nodeFlow (fun e => x (colOf m e)) n := by
  have hin : ∀ e ∈ n.incoming, ∃ c, m.col e = some c := fun e he => hcols e (Or.inl he)
  have hout : ∀ e ∈ n.outgoing, ∃ c, m.col e = some c := fun e he => hcols e (Or.inr he)
  unfold addNode nodeFlow
  cases n.kind with
  | input =>
    obtain ⟨r', h1, h2, h3, h4, h5, _⟩ := addEdges_ok m k n.outgoing r hr hout
    exact ⟨r', h1, h2, h3, h4, h5⟩
  | link =>
    obtain ⟨r', h1, h2, h3, h4, h5, _⟩ := addEdges_ok m k n.outgoing r hr hout
    exact ⟨r', h1, h2, h3, h4, h5⟩
  | output =>
    obtain ⟨r', h1, h2, h3, h4, h5, _⟩ := addEdges_ok m k n.incoming r hr hin
    exact ⟨r', h1, h2, h3, h4, h5⟩
  | storage =>
    obtain ⟨r1, h1, h2, h3, h4, h5, _⟩ := addEdges_ok m k n.incoming r hr hin
    obtain ⟨r2, g1, g2, g3, g4, g5, _⟩ := addEdges_ok m (-k) n.outgoing r1 h2 hout
    refine ⟨r2, by simp only [h1, g1], g2, by rw [g3, h3], by rw [g4, h4], fun x => ?_⟩
    rw [g5, h5]; ring

theorem addNodes_ok (m : ColMap) (net : Network) (is : List (Nat × ℚ))
    (hcols : ∀ n ∈ net.nodes, ∀ e, e ∈ n.incoming ∨ e ∈ n.outgoing → ∃ c, m.col e = some c)
    (his : ∀ p ∈ is, p.1 < net.nodes.length) : ∀ r : Row, r.Sorted →
    ∃ r', addNodes m net is r = some r' ∧ r'.Sorted ∧ r'.lower = r.lower ∧ r'.upper = r.upper ∧
      ∀ x, value r'.columns x = value r.columns x + (is.map (fun p => p.2 * flowAt net (fun e => x (colOf m e)) p.1)).sum := by
  induction is with
  | nil => intro r hr; exact ⟨r, rfl, hr, rfl, rfl, fun x => by simp⟩
  | cons p is ih =>
    obtain ⟨i, k⟩ := p
    intro r hr
    rw [List.forall_mem_cons] at his
    have hi := List.getElem?_eq_getElem his.1
    obtain ⟨r1, h1, h2, h3, h4, h5⟩ := addNode_ok m _ (hcols _ (List.getElem_mem his.1)) k r hr
    obtain ⟨r2, g1, g2, g3, g4, g5⟩ := ih his.2 r1 h2
    refine ⟨r2, by simp only [addNodes, hi, h1, g1], g2, by rw [g3, h3], by rw [g4, h4], fun x => ?_⟩
    rw [g5, h5]
    simp only [List.map_cons, List.sum_cons, flowAt, hi, Option.map_some, Option.getD_some]
    ring

theorem addEdges_keys (m : ColMap) (k : ℚ) (es : List Nat) : ∀ (r r' : Row), addEdges m k es r = some r' →
    ∀ c, c ∈ r'.columns.map (·.1) ↔ c ∈ r.columns.map (·.1) ∨ ∃ e ∈ es, m.col e = some c := by
  induction es with
  | nil => intro r r' h c; simp only [addEdges, Option.some.injEq] at h; subst h; simp
  | cons e es ih =>
    intro r r' h c
    simp only [addEdges] at h
    cases hc : m.col e with
    | none => simp [hc] at h
    | some d =>
      simp only [hc] at h
      rw [ih _ _ h c]
      unfold Row.addElement
      simp only [keys_insert, List.mem_cons, exists_eq_or_imp, hc, Option.some.injEq]
      constructor
      · rintro ((h | h) | h)
        · exact Or.inr (Or.inl h.symm)
        · exact Or.inl h
        · exact Or.inr (Or.inr h)
      · rintro (h | h | h)
        · exact Or.inl (Or.inr h)
        · exact Or.inl (Or.inl h.symm)
        · exact Or.inr h

theorem addNode_keys (m : ColMap) (n : TNode) (k : ℚ) (r r' : Row) (h : addNode m n k r = some r') (c : Nat) :
    c ∈ r'.columns.map (·.1) ↔ c ∈ r.columns.map (·.1) ∨ ∃ e ∈ edgesOf n, m.col e = some c := by
  unfold addNode at h
  unfold edgesOf
  cases hk : n.kind with
  | link => rw [hk] at h; exact addEdges_keys m k _ r r' h c
  | input => rw [hk] at h; exact addEdges_keys m k _ r r' h c
  | output => rw [hk] at h; exact addEdges_keys m k _ r r' h c
  | storage =>
    rw [hk] at h
    simp only at h ⊢
    cases h1 : addEdges m k n.incoming r with
    | none => simp [h1] at h
    | some r1 =>
      simp only [h1] at h
      rw [addEdges_keys m _ _ r1 r' h c, addEdges_keys m _ _ r r1 h1 c]
      simp only [List.mem_append, or_and_right, exists_or, or_assoc]

theorem addNodes_keys (m : ColMap) (net : Network) (is : List (Nat × ℚ)) : ∀ (r r' : Row), addNodes m net is r = some r' →
    ∀ c, c ∈ r'.columns.map (·.1) ↔ c ∈ r.columns.map (·.1) ∨ ∃ e ∈ edgesOfSet net (is.map (·.1)), m.col e = some c := by
  induction is with
  | nil => intro r r' h c; simp only [addNodes, Option.some.injEq] at h; subst h; simp [edgesOfSet]
  | cons p is ih =>
    obtain ⟨i, k⟩ := p
    intro r r' h c
    simp only [addNodes] at h
    cases hn : net.nodes[i]? with
    | none => simp [hn] at h
    | some n =>
      simp only [hn] at h
      cases h1 : addNode m n k r with
      | none => simp [h1] at h
      | some r1 =>
        simp only [h1] at h
        rw [ih r1 r' h c, addNode_keys m n k r r1 h1 c]
        simp only [edgesOfSet, List.map_cons, List.flatMap_cons, hn, Option.map_some, Option.getD_some, List.mem_append,
          or_and_right, exists_or, or_assoc]

/-! ## Growing builders -/

/-- `b'` is `b` with fixed rows `F` and some variable rows added; each of `vs` names a row of `b'`, and every added row is
named. -/
structure Grow (b b' : LpBuilder) (F : List Row) (vs : List (Nat × Row)) : Prop where
  same : b' = { b with rows := b'.rows, fixedRows := b'.fixedRows }
  fixed : b'.fixedRows = b.fixedRows ++ F
  keep : ∃ new, b'.rows = b.rows ++ new
  ids : ∀ p ∈ vs, b'.rows[p.1]? = some p.2
  cover : ∀ i, b.rows.length ≤ i → i < b'.rows.length → ∃ p ∈ vs, p.1 = i

theorem Grow.refl (b : LpBuilder) : Grow b b [] [] :=
  ⟨rfl, by simp, ⟨[], by simp⟩, by simp, fun i h1 h2 => by omega⟩

theorem Grow.trans {b b' b'' : LpBuilder} {F F' : List Row} {vs vs' : List (Nat × Row)} (h : Grow b b' F vs)
    (h' : Grow b' b'' F' vs') : Grow b b'' (F ++ F') (vs ++ vs') := by
  obtain ⟨new, hn⟩ := h.keep
  obtain ⟨new', hn'⟩ := h'.keep
  refine ⟨?_, ?_, ⟨new ++ new', by rw [hn', hn, List.append_assoc]⟩, ?_, ?_⟩
  · rw [h'.same, h.same]
  · rw [h'.fixed, h.fixed, List.append_assoc]
  · intro p hp
    rcases List.mem_append.1 hp with hp | hp
    · have h1 := h.ids p hp
      rw [hn', List.getElem?_append_left (List.getElem?_eq_some_iff.1 h1).1]
      exact h1
    · exact h'.ids p hp
  · intro i h1 h2
    by_cases hi : i < b'.rows.length
    · obtain ⟨p, hp, he⟩ := h.cover i h1 hi
      exact ⟨p, List.mem_append.2 (Or.inl hp), he⟩
    · obtain ⟨p, hp, he⟩ := h'.cover i (by omega) h2
      exact ⟨p, List.mem_append.2 (Or.inr hp), he⟩

theorem grow_fixed (b : LpBuilder) (r : Row) : Grow b (b.addFixedRow r) [r] [] :=
  ⟨rfl, rfl, ⟨[], by simp [LpBuilder.addFixedRow]⟩, by simp, fun i h1 h2 => by
    simp only [LpBuilder.addFixedRow] at h2; omega⟩

theorem grow_variable (b : LpBuilder) (r : Row) : Grow b (b.addVariableRow r).2 [] [((b.addVariableRow r).1, r)] := by
  have hs := addVariableRow_spec b r
  refine ⟨?_, ?_, hs.2, ?_, ?_⟩
  · unfold LpBuilder.addVariableRow; split <;> rfl
  · unfold LpBuilder.addVariableRow; split <;> simp
  · intro p hp
    simp only [List.mem_singleton] at hp
    subst hp
    exact hs.1
  · intro i h1 h2
    refine ⟨_, List.mem_singleton.2 rfl, ?_⟩
    unfold LpBuilder.addVariableRow at h2 ⊢
    split at h2
    · simp only at h2; omega
    · simp only [List.length_append, List.length_singleton] at h2
      omega

/-! ## Creation without exclusivity -/

/-- The columns are in place: every edge has one. -/
def HasCols (m : ColMap) (net : Network) : Prop :=
  ∀ n ∈ net.nodes, ∀ e, e ∈ n.incoming ∨ e ∈ n.outgoing → ∃ c, m.col e = some c

/-- Flow along edges given by values of columns. -/
abbrev via (m : ColMap) (x : Nat → ℚ) : Nat → ℚ := fun e => x (colOf m e)

/-- Row `r` has no upper bound and the value `g`. -/
structure IsRow (r : Row) (g : (Nat → ℚ) → ℚ) : Prop where
  upper : r.upper = none
  value : ∀ x, value r.columns x = g x

theorem createNodeRows_ok (m : ColMap) (net : Network) (hm : HasCols m net) (data : Nat → NodeData) (ns : List TNode)
    (hns : ∀ n ∈ ns, n ∈ net.nodes) : ∀ (b : LpBuilder) (ids : List NodeRow),
    ∃ (b' : LpBuilder) (F : List Row) (new : List (Nat × Row × TNode)),
      createNodeRows m data [] ns b ids = some (b', ids ++ new.map (fun p => ⟨p.1, p.2.2.index, .continuous⟩)) ∧
      Grow b b' F (new.map (fun p => (p.1, p.2.1))) ∧ (∀ p ∈ new, IsRow p.2.1 (fun x => nodeFlow (via m x) p.2.2)) ∧
      new.map (·.2.2) = ns.filter (fun n => (constBounds n (data n.index)).isNone) ∧
      ∀ big x, (∀ r ∈ F, r.Holds big x) ↔ ∀ n ∈ ns, ∀ lo hi, constBounds n (data n.index) = some (lo, hi) →
        lo ≤ nodeFlow (via m x) n ∧ nodeFlow (via m x) n ≤ hi := by
  induction ns with
  | nil => intro b ids; exact ⟨b, [], [], by simp [createNodeRows], Grow.refl b, by simp, by simp, by simp⟩
  | cons n ns ih =>
    intro b ids
    rw [List.forall_mem_cons] at hns
    obtain ⟨r, h1, h2, h3, h4, h5⟩ := addNode_ok m n (hm n hns.1) 1 Row.default Row.sorted_default
    have h5' : ∀ x, value r.columns x = nodeFlow (via m x) n := by
      intro x; rw [h5]; simp [Row.default, value]
    cases hb : constBounds n (data n.index) with
    | some p =>
      obtain ⟨lo, hi⟩ := p
      obtain ⟨b', F, new, g1, g2, g2', g3, g4⟩ := ih hns.2 (b.addFixedRow ((r.setLower lo).setUpper hi)) ids
      refine ⟨b', [(r.setLower lo).setUpper hi] ++ F, new, ?_, ?_, g2', ?_, ?_⟩
      · simp only [createNodeRows, Verif.Topology.lookup, h1, hb]
        exact g1
      · have := (grow_fixed b ((r.setLower lo).setUpper hi)).trans g2
        simpa using this
      · rw [g3, List.filter_cons]; simp [hb]
      · intro big x
        rw [List.singleton_append, List.forall_mem_cons, List.forall_mem_cons, g4 big x]
        apply and_congr _ Iff.rfl
        simp only [Row.Holds, Row.setLower, Row.setUpper, Option.getD_some, h5', hb, Option.some.injEq, Prod.mk.injEq]
        constructor
        · rintro h lo' hi' ⟨rfl, rfl⟩; exact h
        · intro h; exact h lo hi ⟨rfl, rfl⟩
    | none =>
      obtain ⟨b', F, new, g1, g2, g2', g3, g4⟩ := ih hns.2 (b.addVariableRow r).2
        (ids ++ [⟨(b.addVariableRow r).1, n.index, .continuous⟩])
      refine ⟨b', F, ((b.addVariableRow r).1, r, n) :: new, ?_, ?_, ?_, ?_, ?_⟩
      · simp only [createNodeRows, Verif.Topology.lookup, h1, hb]
        rw [g1]; simp
      · have := (grow_variable b r).trans g2
        simpa using this
      · rw [List.forall_mem_cons]; exact ⟨⟨h4, h5'⟩, g2'⟩
      · rw [List.map_cons, g3, List.filter_cons]; simp [hb]
      · intro big x
        rw [g4 big x, List.forall_mem_cons]
        simp [hb]

theorem flatten_sum (q : Nat → ℚ) (sets : List (List Nat)) : (sets.flatten.map q).sum = (sets.map (setFlow q)).sum := by
  induction sets with
  | nil => simp
  | cons s sets ih =>
    rw [List.flatten_cons, List.map_append, List.sum_append, ih]
    rfl

theorem createAggRows_ok (m : ColMap) (net : Network) (hm : HasCols m net) (as : List AggNode)
    (has : ∀ a ∈ as, ∀ s ∈ a.nodes, ∀ i ∈ s, i < net.nodes.length) : ∀ (b : LpBuilder) (ids : List Nat),
    ∃ (b' : LpBuilder) (new : List (Nat × Row × AggNode)), createAggRows m net as b ids = some (b', ids ++ new.map (·.1)) ∧
      Grow b b' [] (new.map (fun p => (p.1, p.2.1))) ∧ (∀ p ∈ new, IsRow p.2.1 (fun x => aggFlow net (via m x) p.2.2)) ∧
      new.map (·.2.2) = as := by
  induction as with
  | nil => intro b ids; exact ⟨b, [], by simp [createAggRows], Grow.refl b, by simp, rfl⟩
  | cons a as ih =>
    intro b ids
    rw [List.forall_mem_cons] at has
    obtain ⟨r, h1, h2, h3, h4, h5⟩ := addNodes_ok m net (a.nodes.flatten.map (fun i => (i, 1))) hm (by
      intro p hp
      obtain ⟨i, hi, rfl⟩ := List.mem_map.1 hp
      obtain ⟨s, hs, his⟩ := List.mem_flatten.1 hi
      exact has.1 s hs i his) Row.default Row.sorted_default
    have h5' : ∀ x, value r.columns x = aggFlow net (via m x) a := by
      intro x
      rw [h5]
      simp only [Row.default, value, List.map_nil, List.sum_nil, zero_add, List.map_map, aggFlow]
      rw [← flatten_sum]
      congr 1
      apply List.map_congr_left
      intro i _
      simp
    obtain ⟨b', new, g1, g2, g2', g3⟩ := ih has.2 (b.addVariableRow r).2 (ids ++ [(b.addVariableRow r).1])
    refine ⟨b', ((b.addVariableRow r).1, r, a) :: new, ?_, ?_, ?_, by simp [g3]⟩
    · simp only [createAggRows, h1]
      rw [g1]; simp
    · have := (grow_variable b r).trans g2
      simpa using this
    · rw [List.forall_mem_cons]; exact ⟨⟨h4, h5'⟩, g2'⟩

theorem createVsRows_ok (m : ColMap) (net : Network) (hm : HasCols m net) (vs : List VStore)
    (hvs : ∀ v ∈ vs, ∀ p ∈ v.members, p.1 < net.nodes.length) : ∀ (b : LpBuilder) (ids : List Nat),
    ∃ (b' : LpBuilder) (new : List (Nat × Row × VStore)), createVsRows m net vs b ids = some (b', ids ++ new.map (·.1)) ∧
      Grow b b' [] (new.map (fun p => (p.1, p.2.1))) ∧ (∀ p ∈ new, IsRow p.2.1 (fun x => -vsUse net (via m x) p.2.2)) ∧
      new.map (·.2.2) = vs := by
  induction vs with
  | nil => intro b ids; exact ⟨b, [], by simp [createVsRows], Grow.refl b, by simp, rfl⟩
  | cons v vs ih =>
    intro b ids
    rw [List.forall_mem_cons] at hvs
    obtain ⟨r, h1, h2, h3, h4, h5⟩ := addNodes_ok m net (v.members.map (fun p => (p.1, -p.2))) hm (by
      intro p hp
      obtain ⟨q, hq, rfl⟩ := List.mem_map.1 hp
      exact hvs.1 q hq) Row.default Row.sorted_default
    have h5' : ∀ x, value r.columns x = -vsUse net (via m x) v := by
      intro x
      rw [h5]
      simp only [Row.default, value, List.map_nil, List.sum_nil, zero_add, List.map_map, vsUse]
      induction v.members with
      | nil => simp
      | cons p ps ih2 => simp only [List.map_cons, List.sum_cons, ih2, Function.comp_apply]; ring
    obtain ⟨b', new, g1, g2, g2', g3⟩ := ih hvs.2 (b.addVariableRow r).2 (ids ++ [(b.addVariableRow r).1])
    refine ⟨b', ((b.addVariableRow r).1, r, v) :: new, ?_, ?_, ?_, by simp [g3]⟩
    · simp only [createVsRows, h1]
      rw [g1]; simp
    · have := (grow_variable b r).trans g2
      simpa using this
    · rw [List.forall_mem_cons]; exact ⟨⟨h4, h5'⟩, g2'⟩

/-! ### Factor rows -/

theorem sum_mul_left (k : ℚ) (q : Nat → ℚ) (l : List Nat) : (l.map (fun i => k * q i)).sum = k * setFlow q l := by
  unfold setFlow
  induction l with
  | nil => simp
  | cons i is ih => simp only [List.map_cons, List.sum_cons, ih, mul_add]

theorem addFactored_ok (m : ColMap) (net : Network) (hm : HasCols m net) (nodes : List Nat)
    (hn : ∀ i ∈ nodes, i < net.nodes.length) (f : Option Fin?) (hf : f ≠ some none) (r : Row) (hr : r.Sorted) :
    ∃ r', addFactored m net nodes f r = some r' ∧ r'.Sorted ∧ r'.lower = r.lower ∧ r'.upper = r.upper ∧
      ∀ x, value r'.columns x = value r.columns x + (f.bind id).getD 1 * setFlow (flowAt net (via m x)) nodes := by
  have key : ∀ k : ℚ, ∃ r', addNodes m net (nodes.map (fun i => (i, k))) r = some r' ∧ r'.Sorted ∧ r'.lower = r.lower ∧
      r'.upper = r.upper ∧ ∀ x, value r'.columns x = value r.columns x + k * setFlow (flowAt net (via m x)) nodes := by
    intro k
    obtain ⟨r', h1, h2, h3, h4, h5⟩ := addNodes_ok m net (nodes.map (fun i => (i, k))) hm (by
      intro p hp
      obtain ⟨i, hi, rfl⟩ := List.mem_map.1 hp
      exact hn i hi) r hr
    refine ⟨r', h1, h2, h3, h4, fun x => ?_⟩
    rw [h5, List.map_map, ← sum_mul_left]
    rfl
  match f, hf with
  | none, _ => simpa [addFactored] using key 1
  | some (some k), _ => simpa [addFactored] using key k

theorem factorRow_ok (m : ColMap) (net : Network) (hm : HasCols m net) (p : CPair)
    (h0 : ∀ i ∈ p.nodes0, i < net.nodes.length) (h1 : ∀ i ∈ p.nodes1, i < net.nodes.length) (hf0 : p.f0 ≠ some none)
    (hf1 : p.f1 ≠ some none) :
    ∃ r, factorRow m net p = some r ∧ r.Sorted ∧ r.lower = p.rhs ∧ r.upper = some p.rhs ∧
      ∀ x, value r.columns x = (p.f0.bind id).getD 1 * setFlow (flowAt net (via m x)) p.nodes0
        + (p.f1.bind id).getD 1 * setFlow (flowAt net (via m x)) p.nodes1 := by
  obtain ⟨r0, a1, a2, a3, a4, a5⟩ := addFactored_ok m net hm p.nodes0 h0 p.f0 hf0 Row.default Row.sorted_default
  obtain ⟨r1, b1, b2, b3, b4, b5⟩ := addFactored_ok m net hm p.nodes1 h1 p.f1 hf1 r0 a2
  refine ⟨(r1.setLower p.rhs).setUpper p.rhs, by simp only [factorRow, a1, b1], b2, rfl, rfl, fun x => ?_⟩
  simp only [Row.setLower, Row.setUpper]
  rw [b5, a5]
  simp [Row.default, value]

theorem addFactored_keys (m : ColMap) (net : Network) (nodes : List Nat) (f : Option Fin?) (hf : f ≠ some none) (r r' : Row)
    (h : addFactored m net nodes f r = some r') (c : Nat) :
    c ∈ r'.columns.map (·.1) ↔ c ∈ r.columns.map (·.1) ∨ ∃ e ∈ edgesOfSet net nodes, m.col e = some c := by
  have e : ∀ k : ℚ, (nodes.map (fun i => (i, k))).map (·.1) = nodes := by
    intro k; rw [List.map_map]; exact List.map_id nodes
  match f, hf with
  | none, _ => rw [addNodes_keys m net _ r r' h c, e]
  | some (some k), _ => rw [addNodes_keys m net _ r r' h c, e]

theorem factorRow_keys (m : ColMap) (net : Network) (p : CPair) (hf0 : p.f0 ≠ some none) (hf1 : p.f1 ≠ some none) (r : Row)
    (h : factorRow m net p = some r) (c : Nat) :
    c ∈ r.columns.map (·.1) ↔ ∃ e ∈ edgesOfSet net p.nodes0 ++ edgesOfSet net p.nodes1, m.col e = some c := by
  unfold factorRow at h
  cases h0 : addFactored m net p.nodes0 p.f0 Row.default with
  | none => simp [h0] at h
  | some r0 =>
    simp only [h0] at h
    cases h1 : addFactored m net p.nodes1 p.f1 r0 with
    | none => simp [h1] at h
    | some r1 =>
      simp only [h1, Option.some.injEq] at h
      subst h
      simp only [Row.setLower, Row.setUpper]
      rw [addFactored_keys m net _ _ hf1 _ _ h1, addFactored_keys m net _ _ hf0 _ _ h0]
      simp only [Row.default, List.map_nil, List.not_mem_nil, false_or, List.mem_append, or_and_right, exists_or]

/-- A pair at setup with its row and, for a variable row, its id. -/
abbrev FRow := CPair × Row × Option Nat

/-- Fixed rows among the rows of pairs. -/
def fixedOf (l : List FRow) : List Row := l.filterMap (fun t => if t.2.2 = none then some t.2.1 else none)

/-- Variable rows among the rows of pairs. -/
def variableOf (l : List FRow) : List (Nat × Row) := l.filterMap (fun t => t.2.2.map (fun i => (i, t.2.1)))

theorem factorRows_ok (m : ColMap) (net : Network) (hm : HasCols m net) (ps : List CPair)
    (hps : ∀ p ∈ ps, (∀ i ∈ p.nodes0, i < net.nodes.length) ∧ (∀ i ∈ p.nodes1, i < net.nodes.length) ∧ p.f0 ≠ some none ∧
      p.f1 ≠ some none) : ∀ (b : LpBuilder) (ids : List (Option Nat)),
    ∃ (b' : LpBuilder) (new : List FRow), factorRows m net ps b ids = some (b', ids ++ new.map (·.2.2)) ∧
      Grow b b' (fixedOf new) (variableOf new) ∧ new.map (·.1) = ps ∧
      ∀ t ∈ new, factorRow m net t.1 = some t.2.1 ∧ (t.2.2 = none ↔ t.1.f0.isSome ∧ t.1.f1.isSome) := by
  induction ps with
  | nil => intro b ids; exact ⟨b, [], by simp [factorRows], Grow.refl b, rfl, by simp⟩
  | cons p ps ih =>
    intro b ids
    rw [List.forall_mem_cons] at hps
    obtain ⟨r, h1, _⟩ := factorRow_ok m net hm p hps.1.1 hps.1.2.1 hps.1.2.2.1 hps.1.2.2.2
    by_cases hk : p.f0.isSome ∧ p.f1.isSome
    · obtain ⟨b', new, g1, g2, g3, g4⟩ := ih hps.2 (b.addFixedRow r) (ids ++ [none])
      refine ⟨b', (p, r, none) :: new, ?_, ?_, by simp [g3], ?_⟩
      · simp only [factorRows, h1]
        rw [if_pos hk, g1]; simp
      · have := (grow_fixed b r).trans g2
        simpa [fixedOf, variableOf] using this
      · rw [List.forall_mem_cons]; exact ⟨⟨h1, by simpa using hk⟩, g4⟩
    · obtain ⟨b', new, g1, g2, g3, g4⟩ := ih hps.2 (b.addVariableRow r).2 (ids ++ [some (b.addVariableRow r).1])
      refine ⟨b', (p, r, some (b.addVariableRow r).1) :: new, ?_, ?_, by simp [g3], ?_⟩
      · simp only [factorRows, h1]
        rw [if_neg hk, g1]; simp
      · have := (grow_variable b r).trans g2
        simpa [fixedOf, variableOf] using this
      · rw [List.forall_mem_cons]; exact ⟨⟨h1, by simpa using hk⟩, g4⟩

/-- Pairs computed at setup concern the nodes of the aggregated node. -/
theorem constPairs_nodes (f : Factors) (nodes : List (List Nat)) (cps : List CPair) (h : f.constPairs nodes = .ok cps) :
    ∀ p ∈ cps, p.nodes0 ∈ nodes ∧ p.nodes1 ∈ nodes := by
  cases f with
  | proportion fs =>
    simp only [Factors.constPairs, constProportional] at h
    cases nodes with
    | nil => simp at h
    | cons n0 rest =>
      simp only at h
      split_ifs at h
      cases hv : constValues fs with
      | error e => simp [hv] at h
      | ok vs =>
        simp only [hv] at h
        split_ifs at h
        all_goals
          simp only [Except.ok.injEq] at h
          subst h
          intro p hp
          obtain ⟨q, hq, rfl⟩ := List.mem_map.1 hp
          exact ⟨by simp, List.mem_cons_of_mem _ (List.of_mem_zip hq).1⟩
  | ratio fs =>
    simp only [Factors.constPairs, constRatio] at h
    split_ifs at h
    have key : ∀ (n0 : List Nat) (f0 : Option ℚ) (xs : List (List Nat × Metric)) (cps : List CPair),
        constRatioLoop n0 f0 xs = .ok cps → ∀ p ∈ cps, p.nodes0 = n0 ∧ p.nodes1 ∈ xs.map (·.1) := by
      intro n0 f0 xs
      induction xs with
      | nil => intro cps h; simp only [constRatioLoop, Except.ok.injEq] at h; subst h; simp
      | cons x xs ih =>
        obtain ⟨n1, f1⟩ := x
        intro cps h
        simp only [constRatioLoop] at h
        cases hc : f1.const? with
        | none =>
          simp only [hc] at h
          cases hr : constRatioLoop n0 f0 xs with
          | error e => simp [hr] at h
          | ok ws =>
            simp only [hr, Except.ok.injEq] at h
            subst h
            rw [List.forall_mem_cons]
            exact ⟨⟨rfl, by simp⟩, fun p hp => ⟨(ih ws hr p hp).1, List.mem_cons_of_mem _ (ih ws hr p hp).2⟩⟩
        | some v =>
          simp only [hc] at h
          split_ifs at h
          cases hr : constRatioLoop n0 f0 xs with
          | error e => simp [hr] at h
          | ok ws =>
            simp only [hr, Except.ok.injEq] at h
            subst h
            rw [List.forall_mem_cons]
            exact ⟨⟨rfl, by simp⟩, fun p hp => ⟨(ih ws hr p hp).1, List.mem_cons_of_mem _ (ih ws hr p hp).2⟩⟩
    cases nodes with
    | nil => simp at h
    | cons n0 ns =>
      cases fs with
      | nil => simp at h
      | cons f0 fs =>
        have h' : ∃ v, constRatioLoop n0 v (ns.zip fs) = .ok cps := by
          simp only at h
          cases hc : f0.const? with
          | none => exact ⟨none, by simpa [hc] using h⟩
          | some v =>
            simp only [hc] at h
            split_ifs at h
            exact ⟨some v, h⟩
        obtain ⟨v, h'⟩ := h'
        intro p hp
        obtain ⟨h1, h2⟩ := key n0 v _ cps h' p hp
        obtain ⟨q, hq, he⟩ := List.mem_map.1 h2
        exact ⟨by simp [h1], List.mem_cons_of_mem _ (he ▸ (List.of_mem_zip hq).1)⟩
  | coefficients fs rhs =>
    simp only [Factors.constPairs, constCoefficients] at h
    split_ifs at h
    split at h
    · simp only [Except.ok.injEq] at h
      subst h
      simp
    · simp at h

theorem createFactorRows_ok (m : ColMap) (net : Network) (hm : HasCols m net) (as : List AggNode)
    (has : ∀ a ∈ as, ∀ s ∈ a.nodes, ∀ i ∈ s, i < net.nodes.length) (hset : ∀ a ∈ as, SetupOk a) :
    ∀ (k : Nat) (b : LpBuilder) (ids : List (Nat × List (Option Nat))),
    ∃ (b' : LpBuilder) (new : List (Nat × List FRow)),
      createFactorRows m net as k b ids = some (b', ids ++ new.map (fun p => (p.1, p.2.map (·.2.2)))) ∧
      Grow b b' (fixedOf (new.flatMap (·.2))) (variableOf (new.flatMap (·.2))) ∧
      (∀ p ∈ new, ∀ t ∈ p.2, factorRow m net t.1 = some t.2.1 ∧ (t.2.2 = none ↔ t.1.f0.isSome ∧ t.1.f1.isSome)) ∧
      (∀ p ∈ new, ∃ j a F, p.1 = k + j ∧ as[j]? = some a ∧ a.factors = some F ∧ F.constPairs a.nodes = .ok (p.2.map (·.1))) ∧
      (∀ j a F, as[j]? = some a → a.factors = some F → ∃ p ∈ new, p.1 = k + j) ∧
      (new.flatMap (·.2)).map (·.1) = as.flatMap AggNode.setupPairs := by
  induction as with
  | nil => intro k b ids; exact ⟨b, [], by simp [createFactorRows], Grow.refl b, by simp, by simp, by simp, by simp⟩
  | cons a as ih =>
    intro k b ids
    rw [List.forall_mem_cons] at has hset
    cases hF : a.factors with
    | none =>
      obtain ⟨b', new, g1, g2, g3, g4, g5, g6⟩ := ih has.2 hset.2 (k + 1) b ids
      refine ⟨b', new, by simp only [createFactorRows, hF]; exact g1, g2, g3, ?_, ?_, ?_⟩
      · intro p hp
        obtain ⟨j, a', F, h1, h2, h3⟩ := g4 p hp
        exact ⟨j + 1, a', F, by omega, by simpa using h2, h3⟩
      · intro j a' F h1 h2
        cases j with
        | zero =>
          simp only [List.getElem?_cons_zero, Option.some.injEq] at h1
          subst h1; rw [hF] at h2; cases h2
        | succ j =>
          obtain ⟨p, hp, he⟩ := g5 j a' F (by simpa using h1) h2
          exact ⟨p, hp, by omega⟩
      · rw [g6, List.flatMap_cons]
        simp [AggNode.setupPairs, hF]
    | some F =>
      obtain ⟨cps, hc, hfin⟩ := hset.1 F hF
      have hnodes := constPairs_nodes F a.nodes cps hc
      obtain ⟨b1, new1, a1, a2, a3, a4⟩ := factorRows_ok m net hm cps (fun p hp =>
        ⟨has.1 _ (hnodes p hp).1, has.1 _ (hnodes p hp).2, (hfin p hp).1, (hfin p hp).2⟩) b []
      obtain ⟨b', new, g1, g2, g3, g4, g5, g6⟩ := ih has.2 hset.2 (k + 1) b1 (ids ++ [(k, new1.map (·.2.2))])
      refine ⟨b', (k, new1) :: new, ?_, ?_, ?_, ?_, ?_, ?_⟩
      · simp only [createFactorRows, hF, hc, a1, List.nil_append]
        rw [g1]; simp
      · have := a2.trans g2
        simpa [fixedOf, variableOf, List.filterMap_append] using this
      · rw [List.forall_mem_cons]; exact ⟨a4, g3⟩
      · rw [List.forall_mem_cons]
        refine ⟨⟨0, a, F, by simp, by simp, hF, by rw [a3]; exact hc⟩, ?_⟩
        intro p hp
        obtain ⟨j, a', F, h1, h2, h3⟩ := g4 p hp
        exact ⟨j + 1, a', F, by omega, by simpa using h2, h3⟩
      · intro j a' F' h1 h2
        cases j with
        | zero => exact ⟨_, List.mem_cons_self, rfl⟩
        | succ j =>
          obtain ⟨p, hp, he⟩ := g5 j a' F' (by simpa using h1) h2
          exact ⟨p, List.mem_cons_of_mem _ hp, by omega⟩
      · rw [List.flatMap_cons, List.map_append, g6, List.flatMap_cons, a3]
        simp [AggNode.setupPairs, hF, hc]

end Verif.Solver
