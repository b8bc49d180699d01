import Verif.Lemmas.ChoiceLp
import Verif.Lemmas.Exclusivity
import Verif.Spec.Choice

/-!
# Creating a program with exclusive groups beside one without
-/

namespace Verif.Solver

open Verif.State (NodeKind Edge)
open Verif.Topology (Network TNode)

/-- The aggregated node without an exclusivity relationship. -/
def AggNode.relax (a : AggNode) : AggNode :=
  { a with relationship := match a.relationship with
    | some (.factored f) => some (.factored f)
    | _ => none }

theorem AggNode.relax_factors (a : AggNode) : a.relax.factors = a.factors := by
  unfold AggNode.relax AggNode.factors
  cases a.relationship with
  | none => rfl
  | some r => cases r <;> rfl

theorem AggNode.relax_exclusivity (a : AggNode) : a.relax.exclusivity = none := by
  unfold AggNode.relax AggNode.exclusivity
  cases a.relationship with
  | none => rfl
  | some r => cases r <;> rfl

/-! ## Rows that do not depend on groups -/

theorem variable_para (b c : LpBuilder) (h : c.rows = b.rows) (r : Row) :
    c.addVariableRow r = ((b.addVariableRow r).1, { c with rows := (b.addVariableRow r).2.rows }) ∧
    (b.addVariableRow r).2.fixedRows = b.fixedRows := by
  unfold LpBuilder.addVariableRow
  rw [h]
  cases rowPosition r b.rows with
  | some i => exact ⟨by rw [← h], rfl⟩
  | none => exact ⟨rfl, rfl⟩

theorem createMassBalance_para (m : ColMap) (ns : List TNode) : ∀ b b', createMassBalance m ns b = some b' →
    ∃ F, b' = { b with fixedRows := b.fixedRows ++ F } ∧
      ∀ c, createMassBalance m ns c = some { c with fixedRows := c.fixedRows ++ F } := by
  induction ns with
  | nil =>
    intro b b' h
    simp only [createMassBalance, Option.some.injEq] at h
    subst h
    exact ⟨[], by simp, fun c => by simp [createMassBalance]⟩
  | cons n ns ih =>
    intro b b' h
    simp only [createMassBalance] at h ⊢
    cases h1 : massBalanceRow m n with
    | none => simp [h1] at h
    | some o =>
      cases o with
      | none => simp only [h1] at h ⊢; exact ih _ _ h
      | some r =>
        simp only [h1] at h ⊢
        obtain ⟨F, h2, h3⟩ := ih _ _ h
        refine ⟨r :: F, ?_, fun c => ?_⟩
        · rw [h2]; simp [LpBuilder.addFixedRow]
        · rw [h3]; simp [LpBuilder.addFixedRow]

theorem createAggRows_para (m : ColMap) (net : Network) (as : List AggNode) : ∀ b ids b' ids',
    createAggRows m net (as.map AggNode.relax) b ids = some (b', ids') → b'.fixedRows = b.fixedRows ∧
      ∀ c, c.rows = b.rows → createAggRows m net as c ids = some ({ c with rows := b'.rows }, ids') := by
  induction as with
  | nil =>
    intro b ids b' ids' h
    simp only [List.map_nil, createAggRows, Option.some.injEq, Prod.mk.injEq] at h
    obtain ⟨rfl, rfl⟩ := h
    exact ⟨rfl, fun c hc => by rw [createAggRows, ← hc]⟩
  | cons a as ih =>
    intro b ids b' ids' h
    simp only [List.map_cons, createAggRows] at h ⊢
    have hn : a.relax.nodes = a.nodes := rfl
    rw [hn] at h
    cases h1 : addNodes m net (a.nodes.flatten.map (fun i => (i, 1))) Row.default with
    | none => simp only [h1] at h; cases h
    | some r =>
      simp only [h1] at h ⊢
      obtain ⟨k1, k2⟩ := ih _ _ _ _ h
      refine ⟨k1.trans (variable_para b b rfl r).2, fun c hc => ?_⟩
      rw [(variable_para b c hc r).1]
      exact k2 _ rfl

theorem factorRows_para (m : ColMap) (net : Network) (ps : List CPair) : ∀ b ids b' ids',
    factorRows m net ps b ids = some (b', ids') → ∃ F, b'.fixedRows = b.fixedRows ++ F ∧
      ∀ c, c.rows = b.rows → factorRows m net ps c ids = some ({ c with rows := b'.rows, fixedRows := c.fixedRows ++ F }, ids') := by
  induction ps with
  | nil =>
    intro b ids b' ids' h
    simp only [factorRows, Option.some.injEq, Prod.mk.injEq] at h
    obtain ⟨rfl, rfl⟩ := h
    exact ⟨[], by simp, fun c hc => by rw [factorRows, ← hc]; simp⟩
  | cons p ps ih =>
    intro b ids b' ids' h
    simp only [factorRows] at h ⊢
    cases h1 : factorRow m net p with
    | none => simp [h1] at h
    | some r =>
      simp only [h1] at h ⊢
      by_cases hf : p.f0.isSome ∧ p.f1.isSome
      · rw [if_pos hf] at h
        obtain ⟨F, k1, k2⟩ := ih _ _ _ _ h
        refine ⟨r :: F, by rw [k1]; simp [LpBuilder.addFixedRow], fun c hc => ?_⟩
        rw [if_pos hf, k2 (c.addFixedRow r) hc]
        simp [LpBuilder.addFixedRow]
      · rw [if_neg hf] at h
        obtain ⟨F, k1, k2⟩ := ih _ _ _ _ h
        refine ⟨F, by rw [k1, (variable_para b b rfl r).2], fun c hc => ?_⟩
        rw [if_neg hf, (variable_para b c hc r).1]
        exact k2 _ rfl

theorem createFactorRows_para (m : ColMap) (net : Network) (as : List AggNode) : ∀ k b ids b' ids',
    createFactorRows m net (as.map AggNode.relax) k b ids = some (b', ids') → ∃ F, b'.fixedRows = b.fixedRows ++ F ∧
      ∀ c, c.rows = b.rows → createFactorRows m net as k c ids =
        some ({ c with rows := b'.rows, fixedRows := c.fixedRows ++ F }, ids') := by
  induction as with
  | nil =>
    intro k b ids b' ids' h
    simp only [List.map_nil, createFactorRows, Option.some.injEq, Prod.mk.injEq] at h
    obtain ⟨rfl, rfl⟩ := h
    exact ⟨[], by simp, fun c hc => by rw [createFactorRows, ← hc]; simp⟩
  | cons a as ih =>
    intro k b ids b' ids' h
    simp only [List.map_cons, createFactorRows, a.relax_factors] at h ⊢
    have hn : a.relax.nodes = a.nodes := rfl
    rw [hn] at h
    cases hf : a.factors with
    | none => simp only [hf] at h ⊢; exact ih _ _ _ _ _ h
    | some f =>
      simp only [hf] at h ⊢
      cases hp : f.constPairs a.nodes with
      | error e =>
        simp only [hp] at h ⊢
        cases e
        case panic => cases h
        all_goals exact ih _ _ _ _ _ h
      | ok ps =>
        simp only [hp] at h ⊢
        cases h1 : factorRows m net ps b [] with
        | none => simp [h1] at h
        | some q =>
          obtain ⟨b1, rows⟩ := q
          simp only [h1] at h
          obtain ⟨F1, g1, g2⟩ := factorRows_para _ _ _ _ _ _ _ h1
          obtain ⟨F2, k1, k2⟩ := ih _ _ _ _ _ h
          refine ⟨F1 ++ F2, by rw [k1, g1, List.append_assoc], fun c hc => ?_⟩
          rw [g2 c hc]
          simp only
          rw [k2 { c with rows := b1.rows, fixedRows := c.fixedRows ++ F1 } rfl]
          simp

theorem createVsRows_para (m : ColMap) (net : Network) (vs : List VStore) : ∀ b ids b' ids',
    createVsRows m net vs b ids = some (b', ids') → b'.fixedRows = b.fixedRows ∧
      ∀ c, c.rows = b.rows → createVsRows m net vs c ids = some ({ c with rows := b'.rows }, ids') := by
  induction vs with
  | nil =>
    intro b ids b' ids' h
    simp only [createVsRows, Option.some.injEq, Prod.mk.injEq] at h
    obtain ⟨rfl, rfl⟩ := h
    exact ⟨rfl, fun c hc => by rw [createVsRows, ← hc]⟩
  | cons v vs ih =>
    intro b ids b' ids' h
    simp only [createVsRows] at h ⊢
    cases h1 : addNodes m net (v.members.map (fun p => (p.1, -p.2))) Row.default with
    | none => simp only [h1] at h; cases h
    | some r =>
      simp only [h1] at h ⊢
      obtain ⟨k1, k2⟩ := ih _ _ _ _ h
      refine ⟨k1.trans (variable_para b b rfl r).2, fun c hc => ?_⟩
      rw [(variable_para b c hc r).1]
      exact k2 _ rfl

/-! ## Binary columns -/

theorem lookup_push_none (k v i : Nat) (acc : List (Nat × List Nat)) :
    Verif.Topology.lookup i (Verif.Topology.pushEntry k v acc) = none ↔ Verif.Topology.lookup i acc = none ∧ i ≠ k := by
  induction acc with
  | nil =>
    simp only [Verif.Topology.pushEntry, Verif.Topology.lookup]
    by_cases h : k = i
    · simp [h]
    · simp [h, Ne.symm h]
  | cons p acc ih =>
    obtain ⟨k', vs⟩ := p
    simp only [Verif.Topology.pushEntry]
    by_cases h : k' = k
    · rw [if_pos h]
      simp only [Verif.Topology.lookup]
      by_cases h2 : k' = i
      · simp [h2]
      · simp only [if_neg h2]
        have : i ≠ k := fun e => h2 (h.trans e.symm)
        simp [this]
    · rw [if_neg h]
      simp only [Verif.Topology.lookup]
      by_cases h2 : k' = i
      · simp [h2]
      · simp only [if_neg h2, ih]

theorem pushAll_none (c i : Nat) (s : List Nat) : ∀ acc : List (Nat × List Nat),
    Verif.Topology.lookup i (s.foldl (fun acc i => Verif.Topology.pushEntry i c acc) acc) = none ↔
      Verif.Topology.lookup i acc = none ∧ i ∉ s := by
  induction s with
  | nil => intro acc; simp
  | cons j s ih =>
    intro acc
    rw [List.foldl_cons, ih, lookup_push_none]
    simp only [List.mem_cons, not_or]
    tauto

theorem pushAll_only (c i : Nat) (s : List Nat) : ∀ acc : List (Nat × List Nat), ∀ d ∈ (Verif.Topology.lookup i
    (s.foldl (fun acc i => Verif.Topology.pushEntry i c acc) acc)).getD [],
      d ∈ (Verif.Topology.lookup i acc).getD [] ∨ i ∈ s ∧ d = c := by
  induction s with
  | nil => intro acc d hd; exact Or.inl hd
  | cons j s ih =>
    intro acc d hd
    rw [List.foldl_cons] at hd
    rcases ih _ d hd with h | ⟨h, rfl⟩
    · rw [Verif.Topology.lookup_pushEntry] at h
      split_ifs at h with he
      · rcases List.mem_append.1 h with h | h
        · exact Or.inl h
        · simp only [List.mem_singleton] at h
          exact Or.inr ⟨by rw [he]; simp, h⟩
      · exact Or.inl h
    · exact Or.inr ⟨List.mem_cons_of_mem _ h, rfl⟩

theorem addBinaries_exact (sets : List (List Nat)) : ∀ (b : LpBuilder) (bins : Bins),
    (addBinaries sets b bins).2.ofSet = bins.ofSet ++ sets.zipIdx b.colLower.length ∧
    (∀ i, Verif.Topology.lookup i (addBinaries sets b bins).2.ofNode = none ↔
      Verif.Topology.lookup i bins.ofNode = none ∧ ∀ g ∈ sets, i ∉ g) ∧
    ∀ i, ∀ d ∈ (Verif.Topology.lookup i (addBinaries sets b bins).2.ofNode).getD [],
      d ∈ (Verif.Topology.lookup i bins.ofNode).getD [] ∨ ∃ g, i ∈ g ∧ (g, d) ∈ sets.zipIdx b.colLower.length := by
  induction sets with
  | nil => intro b bins; exact ⟨by simp [addBinaries], by simp [addBinaries], fun i d h => Or.inl h⟩
  | cons s ss ih =>
    intro b bins
    have hc : (b.addColumn 0 (.double 0 1) .integer).1 = b.colLower.length := rfl
    have hl : (b.addColumn 0 (.double 0 1) .integer).2.colLower.length = b.colLower.length + 1 := by simp [LpBuilder.addColumn]
    obtain ⟨h1, h2, h3⟩ := ih (b.addColumn 0 (.double 0 1) .integer).2
      ⟨s.foldl (fun acc i => Verif.Topology.pushEntry i b.colLower.length acc) bins.ofNode, bins.ofSet ++ [(s, b.colLower.length)]⟩
    rw [hl] at h1 h3
    refine ⟨?_, ?_, ?_⟩
    · simp only [addBinaries, hc]
      rw [h1, List.append_assoc]; rfl
    · intro i
      simp only [addBinaries, hc]
      rw [h2 i]
      simp only
      rw [pushAll_none, List.forall_mem_cons]
      tauto
    · intro i d hd
      simp only [addBinaries, hc] at hd
      rcases h3 i d hd with h | ⟨g, hg, hm⟩
      · rcases pushAll_only _ _ _ _ d h with h | ⟨hs, hd⟩
        · exact Or.inl h
        · exact Or.inr ⟨s, hs, by rw [hd]; simp [List.zipIdx_cons]⟩
      · exact Or.inr ⟨g, hg, by rw [List.zipIdx_cons]; exact List.mem_cons_of_mem _ hm⟩

/-- What the rows of a member say: `q` is its flow and `y` the binary column. -/
def BinHold (top lo hi q y : ℚ) : Prop :=
  (0 ≤ min hi 1000000 * y - q ∧ min hi 1000000 * y - q ≤ top) ∧
  (lo ≠ 0 → 0 ≤ q - max lo (1 / 1000000) * y ∧ q - max lo (1 / 1000000) * y ≤ top)

theorem binaryRows_exact (m : ColMap) (net : Network) (hm : HasCols m net) (n : TNode) (hn : n ∈ net.nodes) (lo hi : ℚ)
    (cs : List Nat) : ∀ (b : LpBuilder) (ids : List NodeRow),
    ∃ F, binaryRows m n (some (lo, hi)) cs b ids = some ({ b with fixedRows := b.fixedRows ++ F }, ids) ∧
      ∀ big x, (∀ r ∈ F, r.Holds big x) ↔ ∀ c ∈ cs, BinHold b.f64Max lo hi (nodeFlow (via m x) n) (x c) := by
  obtain ⟨ub, u1, u2, _, _, u5⟩ := addNode_ok m n (hm n hn) (-1) Row.default Row.sorted_default
  obtain ⟨lb, l1, l2, _, _, l5⟩ := addNode_ok m n (hm n hn) 1 Row.default Row.sorted_default
  have hd : ∀ x, value Row.default.columns x = 0 := fun x => by simp [Row.default, value]
  have hv : ∀ x, nodeFlow (fun e => x (colOf m e)) n = nodeFlow (via m x) n := fun x => rfl
  induction cs with
  | nil => intro b ids; exact ⟨[], by simp [binaryRows], by simp⟩
  | cons c cs ih =>
    intro b ids
    have hU : ∀ big x, (((ub.addElement c (min hi 1000000)).setLower 0).setUpper b.f64Max).Holds big x ↔
        0 ≤ min hi 1000000 * x c - nodeFlow (via m x) n ∧ min hi 1000000 * x c - nodeFlow (via m x) n ≤ b.f64Max := by
      intro big x
      have e : value (((ub.addElement c (min hi 1000000)).setLower 0).setUpper b.f64Max).columns x
          = min hi 1000000 * x c - nodeFlow (via m x) n := by
        show value (ub.addElement c (min hi 1000000)).columns x = _
        rw [ub.value_addElement _ _ _ u2, u5, hd, hv]; ring
      unfold Row.Holds
      rw [e]
      rfl
    have hL : ∀ big x, (((lb.addElement c (-(max lo (1 / 1000000)))).setLower 0).setUpper b.f64Max).Holds big x ↔
        0 ≤ nodeFlow (via m x) n - max lo (1 / 1000000) * x c ∧ nodeFlow (via m x) n - max lo (1 / 1000000) * x c ≤ b.f64Max := by
      intro big x
      have e : value (((lb.addElement c (-(max lo (1 / 1000000)))).setLower 0).setUpper b.f64Max).columns x
          = nodeFlow (via m x) n - max lo (1 / 1000000) * x c := by
        show value (lb.addElement c (-(max lo (1 / 1000000)))).columns x = _
        rw [lb.value_addElement _ _ _ l2, l5, hd, hv]; ring
      unfold Row.Holds
      rw [e]
      rfl
    simp only [binaryRows, u1, l1]
    by_cases hlo : lo ≠ 0
    · obtain ⟨F, f1, f2⟩ := ih ((b.addFixedRow (((ub.addElement c (min hi 1000000)).setLower 0).setUpper b.f64Max)).addFixedRow
        (((lb.addElement c (-(max lo (1 / 1000000)))).setLower 0).setUpper b.f64Max)) ids
      refine ⟨((ub.addElement c (min hi 1000000)).setLower 0).setUpper b.f64Max ::
        ((lb.addElement c (-(max lo (1 / 1000000)))).setLower 0).setUpper b.f64Max :: F, ?_, ?_⟩
      · rw [if_pos hlo]
        refine Eq.trans f1 ?_
        simp only [LpBuilder.addFixedRow, List.append_assoc, List.singleton_append]
        rfl
      · intro big x
        rw [List.forall_mem_cons, List.forall_mem_cons, List.forall_mem_cons, hU, hL]
        have := f2 big x
        rw [this]
        unfold BinHold
        simp only [hlo, not_false_eq_true, true_implies, LpBuilder.addFixedRow, ne_eq]
        tauto
    · obtain ⟨F, f1, f2⟩ := ih (b.addFixedRow (((ub.addElement c (min hi 1000000)).setLower 0).setUpper b.f64Max)) ids
      refine ⟨((ub.addElement c (min hi 1000000)).setLower 0).setUpper b.f64Max :: F, ?_, ?_⟩
      · rw [if_neg hlo]
        refine Eq.trans f1 ?_
        simp only [LpBuilder.addFixedRow, List.append_assoc, List.singleton_append]
      · intro big x
        rw [List.forall_mem_cons, List.forall_mem_cons, hU]
        have := f2 big x
        rw [this]
        unfold BinHold
        simp only [hlo, false_implies, and_true, LpBuilder.addFixedRow]

/-- Node rows beside those of a model without groups. -/
theorem createNodeRows_para (m : ColMap) (net : Network) (hm : HasCols m net) (data data' : Nat → NodeData)
    (bins : List (Nat × List Nat)) (ns : List TNode) (hns : ∀ n ∈ ns, n ∈ net.nodes)
    (hout : ∀ n ∈ ns, Verif.Topology.lookup n.index bins = none → data' n.index = data n.index)
    (hin : ∀ n ∈ ns, ∀ cs, Verif.Topology.lookup n.index bins = some cs →
      (∃ p, constBounds n (data n.index) = some p) ∧ ∃ p, constBounds n (data' n.index) = some p) :
    ∀ (b b' : LpBuilder) (ids ids' : List NodeRow), createNodeRows m data' [] ns b ids = some (b', ids') →
    ∀ c : LpBuilder, c.rows = b.rows → ∃ F, createNodeRows m data bins ns c ids =
        some ({ c with rows := b'.rows, fixedRows := c.fixedRows ++ F }, ids') ∧
      ∀ big x, (∀ r ∈ F, r.Holds big x) ↔ ∀ n ∈ ns, ∀ lo hi, constBounds n (data n.index) = some (lo, hi) →
        (Verif.Topology.lookup n.index bins = none → lo ≤ nodeFlow (via m x) n ∧ nodeFlow (via m x) n ≤ hi) ∧
        ∀ cs, Verif.Topology.lookup n.index bins = some cs → ∀ k ∈ cs,
          BinHold c.f64Max lo hi (nodeFlow (via m x) n) (x k) := by
  induction ns with
  | nil =>
    intro b b' ids ids' h c hc
    simp only [createNodeRows, Option.some.injEq, Prod.mk.injEq] at h
    obtain ⟨rfl, rfl⟩ := h
    exact ⟨[], by rw [createNodeRows, ← hc]; simp, by simp⟩
  | cons n ns ih =>
    intro b b' ids ids' h c hc
    rw [List.forall_mem_cons] at hns hout hin
    obtain ⟨r, q1, _, _, _, q5⟩ := addNode_ok m n (hm n hns.1) 1 Row.default Row.sorted_default
    have q5' : ∀ x, value r.columns x = nodeFlow (via m x) n := by
      intro x; rw [q5]; simp [Row.default, value]
    simp only [createNodeRows, Verif.Topology.lookup, q1] at h
    simp only [createNodeRows]
    cases hl : Verif.Topology.lookup n.index bins with
    | some cs =>
      obtain ⟨⟨⟨lo, hi⟩, p1⟩, ⟨lo', hi'⟩, p2⟩ := hin.1 cs hl
      rw [p2] at h
      simp only at h
      obtain ⟨F1, f1, f2⟩ := binaryRows_exact m net hm n hns.1 lo hi cs c ids
      obtain ⟨F2, g1, g2⟩ := ih hns.2 hout.2 hin.2 _ _ _ _ h { c with fixedRows := c.fixedRows ++ F1 } hc
      refine ⟨F1 ++ F2, ?_, ?_⟩
      · simp only [p1, f1]
        rw [g1]; simp
      · intro big x
        rw [List.forall_mem_append, f2, g2, List.forall_mem_cons]
        apply and_congr _ Iff.rfl
        constructor
        · intro h lo2 hi2 e
          rw [p1] at e
          simp only [Option.some.injEq, Prod.mk.injEq] at e
          obtain ⟨rfl, rfl⟩ := e
          refine ⟨fun e => (by rw [hl] at e; cases e), fun cs' e => ?_⟩
          rw [hl] at e; simp only [Option.some.injEq] at e; subst e
          exact h
        · intro h
          exact (h lo hi p1).2 cs hl
    | none =>
      have hd := hout.1 hl
      rw [hd] at h
      simp only [q1]
      cases hb : constBounds n (data n.index) with
      | some p =>
        obtain ⟨lo, hi⟩ := p
        rw [hb] at h
        simp only at h
        obtain ⟨F2, g1, g2⟩ := ih hns.2 hout.2 hin.2 _ _ _ _ h (c.addFixedRow ((r.setLower lo).setUpper hi)) hc
        refine ⟨(r.setLower lo).setUpper hi :: F2, ?_, ?_⟩
        · simp only
          rw [g1]; simp [LpBuilder.addFixedRow]
        · intro big x
          rw [List.forall_mem_cons, g2, List.forall_mem_cons]
          apply and_congr _ Iff.rfl
          have : ((r.setLower lo).setUpper hi).Holds big x ↔ lo ≤ nodeFlow (via m x) n ∧ nodeFlow (via m x) n ≤ hi := by
            rw [← q5']; rfl
          rw [this]
          constructor
          · intro h lo2 hi2 e
            rw [hb] at e
            simp only [Option.some.injEq, Prod.mk.injEq] at e
            obtain ⟨rfl, rfl⟩ := e
            exact ⟨fun _ => h, fun cs e => by rw [hl] at e; cases e⟩
          · intro h
            exact (h lo hi hb).1 hl
      | none =>
        rw [hb] at h
        simp only at h
        obtain ⟨F2, g1, g2⟩ := ih hns.2 hout.2 hin.2 _ _ _ _ h
          { c with rows := (b.addVariableRow r).2.rows } rfl
        refine ⟨F2, ?_, ?_⟩
        · simp only
          rw [(variable_para b c hc r).1]
          exact g1
        · intro big x
          rw [g2, List.forall_mem_cons]
          constructor
          · intro h
            exact ⟨fun lo hi e => (by rw [hb] at e; cases e), h⟩
          · intro h
            exact h.2

/-- The binary column of a group. -/
def groupCol (bins : List (List Nat × Nat)) (g : List Nat) : Nat := (Verif.Topology.lookup g bins).getD 0

theorem exclusivityRow_exact (bins : List (List Nat × Nat)) (gs : List (List Nat))
    (hg : ∀ g ∈ gs, ∃ c, Verif.Topology.lookup g bins = some c) : ∀ r : Row, r.Sorted →
    ∃ r', exclusivityRow bins gs r = some r' ∧
      ∀ x, value r'.columns x = value r.columns x + (gs.map fun g => x (groupCol bins g)).sum := by
  induction gs with
  | nil => intro r _; exact ⟨r, rfl, by simp⟩
  | cons g gs ih =>
    intro r hr
    rw [List.forall_mem_cons] at hg
    obtain ⟨c, hc⟩ := hg.1
    obtain ⟨r', h1, h2⟩ := ih hg.2 (r.addElement c 1) (r.sorted_addElement c 1 hr)
    refine ⟨r', by simp only [exclusivityRow, hc]; exact h1, fun x => ?_⟩
    rw [h2, r.value_addElement c 1 x hr]
    have : groupCol bins g = c := by unfold groupCol; rw [hc]; rfl
    simp only [List.map_cons, List.sum_cons, this]
    ring

theorem createExclusivityRows_exact (bins : List (List Nat × Nat)) (as : List AggNode)
    (hg : ∀ a ∈ as, ∀ mn mx, a.exclusivity = some (mn, mx) → ∀ g ∈ a.nodes, ∃ c, Verif.Topology.lookup g bins = some c) :
    ∀ b : LpBuilder, ∃ F, createExclusivityRows bins as b = some { b with fixedRows := b.fixedRows ++ F } ∧
      ∀ big x, (∀ r ∈ F, r.Holds big x) ↔ ∀ a ∈ as, ∀ mn mx, a.exclusivity = some (mn, mx) →
        (mn : ℚ) ≤ (a.nodes.map fun g => x (groupCol bins g)).sum ∧ (a.nodes.map fun g => x (groupCol bins g)).sum ≤ mx := by
  induction as with
  | nil => intro b; exact ⟨[], by simp [createExclusivityRows], by simp⟩
  | cons a as ih =>
    intro b
    rw [List.forall_mem_cons] at hg
    cases he : a.exclusivity with
    | none =>
      obtain ⟨F, h1, h2⟩ := ih hg.2 b
      refine ⟨F, by simp only [createExclusivityRows, he]; exact h1, fun big x => ?_⟩
      rw [h2, List.forall_mem_cons]
      exact ⟨fun h => ⟨fun mn mx e => (by rw [he] at e; cases e), h⟩, fun h => h.2⟩
    | some p =>
      obtain ⟨mn, mx⟩ := p
      obtain ⟨r, r1, r2⟩ := exclusivityRow_exact bins a.nodes (hg.1 mn mx he) Row.default Row.sorted_default
      obtain ⟨F, h1, h2⟩ := ih hg.2 (b.addFixedRow ((r.setUpper mx).setLower mn))
      refine ⟨(r.setUpper mx).setLower mn :: F, ?_, fun big x => ?_⟩
      · simp only [createExclusivityRows, he, r1]
        rw [h1]; simp [LpBuilder.addFixedRow]
      · rw [List.forall_mem_cons, h2, List.forall_mem_cons]
        apply and_congr _ Iff.rfl
        have hd : value Row.default.columns x = 0 := by simp [Row.default, value]
        have e : ((r.setUpper (mx : ℚ)).setLower (mn : ℚ)).Holds big x ↔
            (mn : ℚ) ≤ (a.nodes.map fun g => x (groupCol bins g)).sum ∧ (a.nodes.map fun g => x (groupCol bins g)).sum ≤ mx := by
          have := r2 x
          rw [hd, zero_add] at this
          rw [← this]; rfl
        rw [e]
        constructor
        · intro h mn' mx' e
          rw [he] at e
          simp only [Option.some.injEq, Prod.mk.injEq] at e
          obtain ⟨rfl, rfl⟩ := e
          exact h
        · intro h; exact h mn mx he

end Verif.Solver
