import Verif.Lemmas.IpmLpMain
import Mathlib.Data.Rat.BigOperators

/-! # Independence of the mass balance rows -/

namespace Verif.IpmLp

open Finset
open Verif.State (NodeKind Edge)
open Verif.Topology (Network TNode)
open Verif.Solver (OMap ColMap createColMap SetupErr addEdges addNode Model value via HasCols colOf Balanced WF ColInv PassThrough
  columnStep columnLoop find_insert colInv_new)
open Verif.Ipm (rd Csr)

/-! ## Edges share a column only through links that have none but that column -/

/-- Numbers that agree across links whose two edges share a column agree within columns. -/
def Tied (net : Network) (t : OMap Nat) : Prop :=
  ∀ f : Nat → ℚ, (∀ a b c, PassThrough net a b → t.find a = some c → t.find b = some c → f a = f b) →
    ∀ e e' c, t.find e = some c → t.find e' = some c → f e = f e'

theorem tied_insert {net : Network} {t : OMap Nat} (hs : (t.map (·.1)).Pairwise (· < ·)) (ht : Tied net t) {e c : Nat}
    (hnone : t.find e = none)
    (hj : (∀ j, t.find j ≠ some c) ∨ ∃ e', t.find e' = some c ∧ (PassThrough net e e' ∨ PassThrough net e' e)) :
    Tied net (t.insert e c) := by
  have hfind : ∀ j, (t.insert e c).find j = if j = e then some c else t.find j := fun j => find_insert _ _ _ _ hs
  have hkeep : ∀ j d, t.find j = some d → (t.insert e c).find j = some d := by
    intro j d h
    rw [hfind, if_neg, h]
    rintro rfl
    rw [hnone] at h; cases h
  intro f hf
  have hold := ht f (fun a b d hp h1 h2 => hf a b d hp (hkeep a d h1) (hkeep b d h2))
  have hnew : (t.insert e c).find e = some c := by rw [hfind, if_pos rfl]
  have hone : ∀ j, t.find j = some c → f e = f j := by
    intro j hjc
    rcases hj with hj | ⟨e', h1, h2⟩
    · exact absurd hjc (hj j)
    · have he : f e = f e' := by
        rcases h2 with h2 | h2
        · exact hf e e' c h2 hnew (hkeep e' c h1)
        · exact (hf e' e c h2 (hkeep e' c h1) hnew).symm
      rw [he]; exact hold e' j c h1 hjc
  intro j j' d h h'
  rw [hfind] at h h'
  split_ifs at h h' with h1 h2 h2
  · rw [h1, h2]
  · simp only [Option.some.injEq] at h; subst h; rw [h1]; exact hone j' h'
  · simp only [Option.some.injEq] at h'; subst h'; rw [h2]; exact (hone j h).symm
  · exact hold j j' d h h'

theorem tied_congr {net : Network} {t t' : OMap Nat} (h : ∀ j, t.find j = t'.find j) (ht : Tied net t) : Tied net t' := by
  unfold Tied at ht ⊢
  simp only [← h]
  exact ht

theorem fresh {net : Network} {m : ColMap} (hm : ColInv net m) : ∀ j, m.edgeToCol.find j ≠ some m.colToEdges.length := by
  intro j h
  obtain ⟨es, h1, _⟩ := hm.fwd j _ h
  have := (List.getElem?_eq_some_iff.1 h1).1
  omega

theorem tied_simple {net : Network} {m : ColMap} (hm : ColInv net m) (ht : Tied net m.edgeToCol) (e : Nat) :
    Tied net (m.addSimple e).edgeToCol := by
  unfold ColMap.addSimple
  cases h : m.edgeToCol.find e with
  | some c => exact ht
  | none => exact tied_insert hm.sorted ht h (Or.inl (fresh hm))

theorem tied_equal {net : Network} {m : ColMap} (hm : ColInv net m) (ht : Tied net m.edgeToCol) {e e' : Nat}
    (he : e < net.edges.length) (hp : PassThrough net e' e) : Tied net (m.addEqual e e').edgeToCol := by
  unfold ColMap.addEqual
  cases h : m.edgeToCol.find e with
  | some c =>
    cases h' : m.edgeToCol.find e' with
    | some c' => exact ht
    | none => exact tied_insert hm.sorted ht h' (Or.inr ⟨e, h, Or.inl hp⟩)
  | none =>
    cases h' : m.edgeToCol.find e' with
    | some c => exact tied_insert hm.sorted ht h (Or.inr ⟨e', h', Or.inr hp⟩)
    | none =>
      have h1 := tied_insert hm.sorted ht h (Or.inl (fresh hm))
      have hs := (colInv_new hm he h).sorted
      have hf1 : ∀ j, (m.edgeToCol.insert e m.colToEdges.length).find j
          = if j = e then some m.colToEdges.length else m.edgeToCol.find j := fun j => find_insert _ _ _ _ hm.sorted
      by_cases hee : e' = e
      · refine tied_congr (t := m.edgeToCol.insert e m.colToEdges.length) (fun j => ?_) h1
        show _ = ((m.edgeToCol.insert e m.colToEdges.length).insert e' m.colToEdges.length).find j
        rw [find_insert _ _ _ _ hs, hee, hf1]
        split_ifs <;> rfl
      · exact tied_insert hs h1 (by rw [hf1, if_neg hee, h']) (Or.inr ⟨e, by rw [hf1, if_pos rfl], Or.inl hp⟩)

theorem tied_step {net : Network} (wf : WF net) {m m' : ColMap} (hm : ColInv net m) (ht : Tied net m.edgeToCol) {e : Edge}
    (he : e ∈ net.edges) (h : columnStep net m e = .ok m') : Tied net m'.edgeToCol := by
  obtain ⟨k, hk⟩ := List.mem_iff_getElem?.1 he
  obtain ⟨hidx, hfrom, _⟩ := wf.index k e hk
  have hlt : e.index < net.edges.length := by rw [hidx]; exact (List.getElem?_eq_some_iff.1 hk).1
  have hn := List.getElem?_eq_getElem hfrom
  have hmemn : net.nodes[e.fromNode] ∈ net.nodes := List.getElem_mem _
  have hout : e.index ∈ net.nodes[e.fromNode].outgoing := (wf.mem_outgoing hn _).2 ⟨e, by rw [hidx]; exact hk, rfl⟩
  unfold columnStep at h
  rw [hn] at h
  simp only at h
  cases hkind : net.nodes[e.fromNode].kind with
  | link =>
    simp only [hkind, List.contains_iff_mem, hout, if_true] at h
    split at h
    · rename_i i o hin ho
      rw [ho] at hout
      simp only [List.mem_singleton] at hout
      subst hout
      cases h
      exact tied_equal hm ht hlt ⟨_, hmemn, hkind, hin, ho⟩
    · cases h; exact tied_simple hm ht _
  | input => simp only [hkind] at h; cases h; exact tied_simple hm ht _
  | output => simp only [hkind] at h; cases h; exact tied_simple hm ht _
  | storage => simp only [hkind] at h; cases h; exact tied_simple hm ht _

theorem tied_loop {net : Network} (wf : WF net) (es : List Edge) : ∀ (m m' : ColMap), ColInv net m → Tied net m.edgeToCol →
    (∀ e ∈ es, e ∈ net.edges) → columnLoop net es m = .ok m' → Tied net m'.edgeToCol := by
  induction es with
  | nil => intro m m' _ ht _ h; simp only [columnLoop] at h; cases h; exact ht
  | cons e es ih =>
    intro m m' hm ht hes h
    obtain ⟨m1, h1, hok⟩ := Solver.columnStep_ok wf hm (hes e (by simp))
    simp only [columnLoop, h1] at h
    exact ih m1 m' hok.inv (tied_step wf hm ht (hes e (by simp)) h1) (fun e' he' => hes e' (List.mem_cons_of_mem _ he')) h

theorem tied_create {net : Network} (wf : WF net) {m : ColMap} (h : createColMap net = .ok m) : Tied net m.edgeToCol := by
  unfold createColMap at h
  split_ifs at h
  exact tied_loop wf net.edges _ m (Solver.colInv_empty net) (fun _ _ _ _ _ h => by simp [OMap.find] at h) (fun _ h => h) h

/-! ## The rows -/

/-- By how much more enters than leaves. -/
def surplus (f : Nat → ℚ) (n : TNode) : ℚ := (n.incoming.map f).sum - (n.outgoing.map f).sum

/-- Both edges of the link are one column. -/
def OneColumn (m : ColMap) (n : TNode) : Prop := ∃ i o c, n.incoming = [i] ∧ n.outgoing = [o] ∧ m.col i = some c ∧ m.col o = some c

theorem surplus_oneColumn {m : ColMap} {n : TNode} (h : OneColumn m n) (x : Nat → ℚ) : surplus (via m x) n = 0 := by
  obtain ⟨i, o, c, h1, h2, h3, h4⟩ := h
  unfold surplus via colOf
  rw [h1, h2]
  simp [h3, h4]

theorem massRow_spec {net : Network} (wf : WF net) {m : ColMap} (hinv : ColInv net m)
    (hall : ∀ e < net.edges.length, ∃ c, m.edgeToCol.find e = some c) {n : TNode} (hn : n ∈ net.nodes) :
    (massRow m n = some none ∧ (n.kind = .link → OneColumn m n)) ∨
    ∃ r, massRow m n = some (some r) ∧ n.kind = .link ∧ ¬ OneColumn m n ∧ ∀ x, value r x = surplus (via m x) n := by
  unfold massRow
  by_cases hlink : n.kind = .link
  · obtain ⟨hi, ho⟩ := wf.links n hn hlink
    have hin : ∀ e ∈ n.incoming, ∃ c, m.col e = some c := fun e he =>
      hall e (Solver.edges_in_range (M := ⟨net, fun _ => ⟨none, none, none, none, none, none⟩, [], []⟩) wf n hn e (Or.inl he))
    have hout : ∀ e ∈ n.outgoing, ∃ c, m.col e = some c := fun e he =>
      hall e (Solver.edges_in_range (M := ⟨net, fun _ => ⟨none, none, none, none, none, none⟩, [], []⟩) wf n hn e (Or.inr he))
    obtain ⟨r1, a1, a2, _, _, a3, a4⟩ := Solver.addEdges_ok m 1 n.incoming Solver.Row.default Solver.Row.sorted_default hin
    obtain ⟨r2, b1, b2, _, _, b3, b4⟩ := Solver.addEdges_ok m (-1) n.outgoing r1 a2 hout
    have hkeys : ∀ c, c ∈ r2.columns.map (·.1) ↔ (∃ e, (e ∈ n.incoming ∨ e ∈ n.outgoing) ∧ colOf m e = c) := by
      intro c
      rw [b4, a4]
      simp only [Solver.Row.default, List.map_nil, List.not_mem_nil, false_or]
      constructor
      · rintro (⟨e, he, h⟩ | ⟨e, he, h⟩)
        · exact ⟨e, Or.inl he, h⟩
        · exact ⟨e, Or.inr he, h⟩
      · rintro ⟨e, he | he, h⟩
        · exact Or.inl ⟨e, he, h⟩
        · exact Or.inr ⟨e, he, h⟩
    have hval : ∀ x, value r2.columns x = surplus (via m x) n := by
      intro x
      unfold surplus via
      rw [b3, a3]
      simp only [Solver.Row.default, value, List.map_nil, List.sum_nil]
      ring
    have hne : r2.columns ≠ [] := by
      obtain ⟨e, he⟩ := List.exists_mem_of_ne_nil _ hi
      intro h0
      have := (hkeys (colOf m e)).2 ⟨e, Or.inl he, rfl⟩
      rw [h0] at this; simp at this
    have hcol : ∀ e, e ∈ n.incoming ∨ e ∈ n.outgoing → m.col e = some (colOf m e) := by
      intro e he
      obtain ⟨c, hc⟩ : ∃ c, m.col e = some c := he.elim (hin e) (hout e)
      simp [colOf, hc]
    simp only [hlink, a1, b1, List.isEmpty_iff, hne, if_false]
    by_cases hone : r2.columns.length = 1
    · left
      refine ⟨by rw [if_pos hone], fun _ => ?_⟩
      obtain ⟨p, hp⟩ := List.length_eq_one_iff.1 hone
      have hsame : ∀ e, e ∈ n.incoming ∨ e ∈ n.outgoing → m.col e = some p.1 := by
        intro e he
        have h1 : colOf m e = p.1 := by
          have := (hkeys (colOf m e)).2 ⟨e, he, rfl⟩
          rw [hp] at this
          simpa using this
        rw [hcol e he, h1]
      obtain ⟨i, o, h1, h2⟩ := Solver.one_column wf hinv hn hlink p.1 hsame
      exact ⟨i, o, p.1, h1, h2, hsame i (Or.inl (by rw [h1]; simp)), hsame o (Or.inr (by rw [h2]; simp))⟩
    · right
      refine ⟨r2.columns, by rw [if_neg hone], trivial, ?_, hval⟩
      rintro ⟨i, o, c, h1, h2, h3, h4⟩
      have hk : ∀ d ∈ r2.columns.map (·.1), d = c := by
        intro d hd
        obtain ⟨e, he, rfl⟩ := (hkeys d).1 hd
        rw [h1, h2] at he
        simp only [List.mem_singleton] at he
        rcases he with rfl | rfl
        · simp [colOf, h3]
        · simp [colOf, h4]
      have hs : (r2.columns.map (·.1)).Pairwise (· < ·) := b2
      have hl : ∀ l : List Nat, l ≠ [] → l.Pairwise (· < ·) → (∀ d ∈ l, d = c) → l.length = 1 := by
        intro l h0 h1 h2
        match l, h0, h1, h2 with
        | [_], _, _, _ => rfl
        | u :: w :: l, _, h1, h2 =>
          have e1 := h2 u (by simp)
          have e2 := h2 w (by simp)
          simp at h1
          omega
      have := hl _ (fun h0 => hne (List.map_eq_nil_iff.1 h0)) hs hk
      exact hone (by simpa using this)
  · left
    refine ⟨?_, fun h => absurd h hlink⟩
    cases hk : n.kind <;> simp_all

theorem massRows_spec {net : Network} (wf : WF net) {m : ColMap} (hinv : ColInv net m)
    (hall : ∀ e < net.edges.length, ∃ c, m.edgeToCol.find e = some c) (ns : List TNode) : (∀ n ∈ ns, n ∈ net.nodes) →
    ∀ b b' : Builder, massRows m ns b = some b' → ∃ rows ls, b'.equality = b.equality ++ rows ∧
      ls = ns.filter (fun n => by classical exact decide (n.kind = .link ∧ ¬ OneColumn m n)) ∧
      List.Forall₂ (fun r n => ∀ x, value r x = surplus (via m x) n) rows ls := by
  classical
  induction ns with
  | nil => intro _ b b' h; simp only [massRows, Option.some.injEq] at h; exact ⟨[], [], by simp [h], by simp, .nil⟩
  | cons n ns ih =>
    intro hns b b' h
    rw [List.forall_mem_cons] at hns
    rcases massRow_spec wf hinv hall hns.1 with ⟨h1, h2⟩ | ⟨r, h1, h2, h3, h4⟩
    · simp only [massRows, h1] at h
      obtain ⟨rows, ls, c1, c2, c3⟩ := ih hns.2 b b' h
      refine ⟨rows, ls, c1, ?_, c3⟩
      rw [List.filter_cons, if_neg, c2]
      simp only [decide_eq_true_eq, not_and, not_not]
      exact h2
    · simp only [massRows, h1] at h
      obtain ⟨rows, ls, c1, c2, c3⟩ := ih hns.2 _ b' h
      refine ⟨r :: rows, n :: ls, by rw [c1]; simp [Builder.addFixed], ?_, .cons h4 c3⟩
      rw [List.filter_cons, if_pos (by simp [h2, h3]), c2]

/-! ## Flows along paths -/

theorem surplus_add (f g : Nat → ℚ) (n : TNode) : surplus (fun e => f e + g e) n = surplus f n + surplus g n := by
  unfold surplus
  rw [List.sum_map_add, List.sum_map_add]; ring

theorem surplus_neg (f : Nat → ℚ) (n : TNode) : surplus (fun e => -f e) n = -surplus f n := by
  have h : ∀ l : List Nat, (l.map (fun e => -f e)).sum = -(l.map f).sum := by
    intro l
    induction l with
    | nil => simp
    | cons a l ih => simp only [List.map_cons, List.sum_cons, ih]; ring
  unfold surplus
  rw [h, h]; ring

theorem sum_unit {l : List Nat} (hl : l.Nodup) (e : Nat) : (l.map (fun j => if j = e then (1 : ℚ) else 0)).sum = if e ∈ l then 1 else 0 := by
  induction l with
  | nil => simp
  | cons a l ih =>
    rw [List.nodup_cons] at hl
    rw [List.map_cons, List.sum_cons, ih hl.2]
    by_cases h : a = e
    · subst h; simp [hl.1]
    · have : e ≠ a := fun h' => h h'.symm
      simp [h, this]

/-- A unit along an edge arrives at one end and leaves at the other. -/
theorem surplus_unit {net : Network} (wf : WF net) {e : Edge} (he : e ∈ net.edges) {k : Nat} {n : TNode} (hn : net.nodes[k]? = some n) :
    surplus (fun j => if j = e.index then 1 else 0) n = (if e.toNode = k then 1 else 0) - (if e.fromNode = k then 1 else 0) := by
  obtain ⟨q, hq⟩ := List.mem_iff_getElem?.1 he
  have hidx := (wf.index q e hq).1
  unfold surplus
  rw [sum_unit (wf.incoming_nodup (List.mem_of_getElem? hn)), sum_unit (wf.outgoing_nodup (List.mem_of_getElem? hn))]
  have h1 : e.index ∈ n.incoming ↔ e.toNode = k := by
    rw [wf.mem_incoming hn, hidx]
    constructor
    · rintro ⟨ed, h, h'⟩; rw [hq] at h; cases h; exact h'
    · intro h; exact ⟨e, hq, h⟩
  have h2 : e.index ∈ n.outgoing ↔ e.fromNode = k := by
    rw [wf.mem_outgoing hn, hidx]
    constructor
    · rintro ⟨ed, h, h'⟩; rw [hq] at h; cases h; exact h'
    · intro h; exact ⟨e, hq, h⟩
  simp only [h1, h2]

/-- From an anchored node a unit can be drained without disturbing any other link. -/
theorem drain {net : Network} (wf : WF net) {i : Nat} (h : Anchored net i) :
    ∃ f : Nat → ℚ, ∀ k n, net.nodes[k]? = some n → n.kind = .link → surplus f n = if k = i then 1 else 0 := by
  induction h with
  | here hn hk =>
    refine ⟨fun _ => 0, fun k n hkn hl => ?_⟩
    rw [if_neg]
    · simp [surplus]
    · rintro rfl
      rw [hn] at hkn; cases hkn
      exact hk hl
  | @down e he _ ih =>
    obtain ⟨f, hf⟩ := ih
    refine ⟨fun j => f j + -(if j = e.index then 1 else 0), fun k n hkn hl => ?_⟩
    rw [surplus_add, surplus_neg, hf k n hkn hl, surplus_unit wf he hkn]
    simp only [eq_comm (a := k)]
    ring
  | @up e he _ ih =>
    obtain ⟨f, hf⟩ := ih
    refine ⟨fun j => f j + (if j = e.index then 1 else 0), fun k n hkn hl => ?_⟩
    rw [surplus_add, hf k n hkn hl, surplus_unit wf he hkn]
    simp only [eq_comm (a := k)]
    ring

/-! ## Independence -/

variable {M : Model} {s : Built} {m : ColMap} {I E : List Cols}

/-- The links that have a row. -/
theorem Created.rows (hc : Created M s m I E) (hv : M.Valid) : ∃ ls : List TNode,
    ls = M.net.nodes.filter (fun n => by classical exact decide (n.kind = .link ∧ ¬ OneColumn m n)) ∧
    List.Forall₂ (fun r n => ∀ x, value r x = surplus (via m x) n) E ls := by
  obtain ⟨_, hinv, hall, _⟩ := cols_of M hv hc.colMap
  obtain ⟨rows, ls, h1, h2, h3⟩ := massRows_spec (Solver.Created.wf hv) hinv hall M.net.nodes (fun _ h => h) _ _ hc.made
  simp only [List.nil_append] at h1
  subst h1
  exact ⟨ls, h2, h3⟩

/-- A flow that is balanced at the links without a row is given by columns. -/
theorem Created.columns (hc : Created M s m I E) (hv : M.Valid) (f : Nat → ℚ)
    (hf : ∀ n ∈ M.net.nodes, n.kind = .link → OneColumn m n → surplus f n = 0) :
    ∃ x : Nat → ℚ, ∀ e < M.net.edges.length, via m x e = f e := by
  obtain ⟨_, hinv, hall, _⟩ := cols_of M hv hc.colMap
  have ht := tied_create (Solver.Created.wf hv) hc.colMap f (by
    rintro a b c ⟨n, hn, hk, h1, h2⟩ ha hb
    have := hf n hn hk ⟨a, b, c, h1, h2, ha, hb⟩
    unfold surplus at this
    rw [h1, h2] at this
    simp at this
    linarith)
  refine ⟨fun c => f (((m.colToEdges[c]?).getD []).headD 0), fun e he => ?_⟩
  obtain ⟨c, hcc⟩ := hall e he
  obtain ⟨es, h2, h3⟩ := hinv.fwd e c hcc
  have hcol : colOf m e = c := by simp [colOf, ColMap.col, hcc]
  unfold via
  simp only [hcol, h2, Option.getD_some]
  cases es with
  | nil => simp at h3
  | cons e0 es => exact ht e0 e c ((hinv.bwd c _ h2).2 e0 (by simp)) hcc

theorem surplus_agree (hv : M.Valid) {f g : Nat → ℚ} (h : ∀ e < M.net.edges.length, f e = g e) : ∀ n ∈ M.net.nodes,
    surplus f n = surplus g n := by
  intro n hn
  unfold surplus
  rw [List.map_congr_left (fun e he => h e (Solver.edges_in_range (Solver.Created.wf hv) n hn e (Or.inl he))),
    List.map_congr_left (fun e he => h e (Solver.edges_in_range (Solver.Created.wf hv) n hn e (Or.inr he)))]

variable {K : Type} [Field K] [LinearOrder K] [IsStrictOrderedRing K]

theorem entry_cast (a : Csr ℚ) (i c : Nat) : (castCsr K a).entry i c = ((a.entry i c : ℚ) : K) := by
  unfold Csr.entry
  rw [Rat.cast_sum]
  apply Finset.sum_congr rfl
  intro p _
  show (if a.cols.getD p 0 = c then rd (a.values.map (fun v : ℚ => (v : K))) p else 0) = _
  split_ifs
  · unfold rd
    rw [List.getD_eq_getElem?_getD, List.getD_eq_getElem?_getD, List.getElem?_map]
    cases a.values[p]? <;> simp
  · simp

theorem Created.weigh (hc : Created M s m I E) (hv : M.Valid) (v : Nat → K) (x : Nat → ℚ) :
    ∑ c ∈ range m.colToEdges.length, (∑ i ∈ range (I ++ E).length, v i * (castCsr K s.lp.csr).entry i c) * (x c : K)
      = ∑ i ∈ range (I ++ E).length, v i * ((value ((I ++ E).getD i []) x : ℚ) : K) := by
  simp only [Finset.sum_mul]
  rw [Finset.sum_comm]
  apply Finset.sum_congr rfl
  intro i hi
  have hi := Finset.mem_range.1 hi
  rw [List.getD_eq_getElem _ _ hi, ← entry_sum (I ++ E) _ (hc.keys hv) hi x, Rat.cast_sum, Finset.mul_sum]
  apply Finset.sum_congr rfl
  intro c _
  rw [entry_cast, hc.csr, Rat.cast_mul]
  ring

theorem Created.independent (hc : Created M s m I E) (hv : M.Valid)
    (h : ∀ n ∈ M.net.nodes, n.kind = .link → Anchored M.net n.index) :
    (castCsr K s.lp.csr).Independent s.lp.inequality.nrows := by
  have wf := Solver.Created.wf hv
  obtain ⟨ls, hls, hrows⟩ := hc.rows hv
  have hsub : ls.Sublist M.net.nodes := by rw [hls]; exact List.filter_sublist
  have hmem : ∀ n, n ∈ ls ↔ n ∈ M.net.nodes ∧ n.kind = .link ∧ ¬ OneColumn m n := by
    intro n; rw [hls]; simp
  have hn : s.lp.inequality.nrows = I.length := by rw [hc.ineq, nrows_ofRows]
  have hnr : (castCsr K s.lp.csr).nrows = (I ++ E).length := by rw [hc.csr]; rfl
  have hnc : (castCsr K s.lp.csr).ncols = m.colToEdges.length := by rw [hc.csr]; rfl
  intro v hv0 hA i hi
  rw [hnr, hnc] at *
  rw [hn] at hv0
  by_cases hlt : i < I.length
  · exact hv0 i hlt
  -- the link of the row
  have hj : i - I.length < E.length := by rw [List.length_append] at hi; omega
  have hjl : i - I.length < ls.length := by rw [← hrows.length_eq]; exact hj
  set n := ls[i - I.length] with hnd
  obtain ⟨hnn, hnk, hno⟩ := (hmem n).1 (List.getElem_mem hjl)
  obtain ⟨k, hk⟩ := List.mem_iff_getElem?.1 hnn
  have hki := wf.nodeIndex k n hk
  obtain ⟨f, hf⟩ := drain wf (h n hnn hnk)
  rw [hki] at hf
  obtain ⟨x, hx⟩ := hc.columns hv f (by
    intro n' hn' hk' ho
    obtain ⟨k', hkk⟩ := List.mem_iff_getElem?.1 hn'
    rw [hf k' n' hkk hk', if_neg]
    rintro rfl
    rw [hk] at hkk; cases hkk
    exact hno ho)
  have hsum := hc.weigh (K := K) hv v x
  rw [Finset.sum_eq_zero (fun c hcc => by rw [hA c (Finset.mem_range.1 hcc), zero_mul])] at hsum
  have hnd' : (M.net.nodes).Nodup := by
    rw [List.nodup_iff_getElem?_ne_getElem?]
    intro a b hab hb heq
    have h1 := List.getElem?_eq_getElem hb
    rw [h1] at heq
    have e1 := wf.nodeIndex a _ heq
    have e2 := wf.nodeIndex b _ h1
    omega
  have hlsn : ls.Nodup := hsub.nodup hnd'
  rw [Finset.sum_eq_single i] at hsum
  · have hval : value ((I ++ E).getD i []) x = 1 := by
      rw [List.getD_eq_getElem _ _ hi, List.getElem_append_right (by omega)]
      have := (List.forall₂_iff_get.1 hrows).2 (i - I.length) hj hjl x
      simp only [List.get_eq_getElem] at this
      rw [this, surplus_agree hv hx _ hnn, hf k n hk hnk, if_pos rfl]
    rw [hval] at hsum
    simpa using hsum.symm
  · intro i' hi' hne
    have hi' := Finset.mem_range.1 hi'
    by_cases hlt' : i' < I.length
    · rw [hv0 i' hlt', zero_mul]
    · have hj' : i' - I.length < E.length := by rw [List.length_append] at hi'; omega
      have hjl' : i' - I.length < ls.length := by rw [← hrows.length_eq]; exact hj'
      obtain ⟨hnn', hnk', _⟩ := (hmem ls[i' - I.length]).1 (List.getElem_mem hjl')
      obtain ⟨k', hk'⟩ := List.mem_iff_getElem?.1 hnn'
      have hval : value ((I ++ E).getD i' []) x = 0 := by
        rw [List.getD_eq_getElem _ _ hi', List.getElem_append_right (by omega)]
        have := (List.forall₂_iff_get.1 hrows).2 (i' - I.length) hj' hjl' x
        simp only [List.get_eq_getElem] at this
        rw [this, surplus_agree hv hx _ hnn', hf k' _ hk' hnk', if_neg]
        rintro rfl
        rw [hk] at hk'
        have he : ls[i - I.length] = ls[i' - I.length] := Option.some.inj hk'
        have := (List.Nodup.getElem_inj_iff hlsn).1 he
        omega
      rw [hval]; simp
  · intro h0; exact absurd (Finset.mem_range.2 hi) h0

open Classical in
/-- One for nodes that are not anchored. -/
noncomputable def loose (net : Network) (k : Nat) : ℚ := if Anchored net k then 0 else 1

theorem loose_edge {net : Network} {e : Edge} (he : e ∈ net.edges) : loose net e.toNode = loose net e.fromNode := by
  have : Anchored net e.toNode ↔ Anchored net e.fromNode := ⟨.down he, .up he⟩
  unfold loose
  by_cases h : Anchored net e.fromNode
  · rw [if_pos h, if_pos (this.2 h)]
  · rw [if_neg h, if_neg (fun h' => h (this.1 h'))]

/-- Nothing can get into or out of the part of a network that is not anchored. -/
theorem loose_sum {net : Network} (wf : WF net) (f : Nat → ℚ) : (net.nodes.map (fun n => loose net n.index * surplus f n)).sum = 0 := by
  have hnodes : net.nodes.map (fun n => loose net n.index * surplus f n)
      = (List.range net.nodes.length).map (fun k => loose net k * ((net.edges.filter (fun e => e.toNode = k)).map (fun e => f e.index)).sum
        + -loose net k * ((net.edges.filter (fun e => e.fromNode = k)).map (fun e => f e.index)).sum) := by
    apply List.ext_getElem?
    intro k
    rw [List.getElem?_map, List.getElem?_map]
    by_cases hk : k < net.nodes.length
    · have hn := List.getElem?_eq_getElem hk
      rw [List.getElem?_range hk, hn]
      simp only [Option.map_some, Option.some.injEq]
      unfold surplus
      rw [wf.nodeIndex k _ hn, wf.incoming k _ hn, wf.outgoing k _ hn, List.map_map, List.map_map]
      show _ * ((List.map (fun e : Edge => f e.index) _).sum - (List.map (fun e : Edge => f e.index) _).sum) = _
      ring
    · rw [List.getElem?_eq_none (by omega), List.getElem?_eq_none (by simpa using hk)]; rfl
  have hfrom : ∀ e ∈ net.edges, e.fromNode < net.nodes.length := by
    intro e he
    obtain ⟨k, hk⟩ := List.mem_iff_getElem?.1 he
    exact (wf.index k e hk).2.1
  have hto : ∀ e ∈ net.edges, e.toNode < net.nodes.length := by
    intro e he
    obtain ⟨k, hk⟩ := List.mem_iff_getElem?.1 he
    exact (wf.index k e hk).2.2
  rw [hnodes, List.sum_map_add, Solver.sum_by_node net.edges (·.toNode) _ hto (loose net) (fun e => f e.index),
    Solver.sum_by_node net.edges (·.fromNode) _ hfrom (fun k => -loose net k) (fun e => f e.index), ← List.sum_map_add]
  apply List.sum_eq_zero
  intro y hy
  obtain ⟨e, he, rfl⟩ := List.mem_map.1 hy
  rw [loose_edge he]; ring

theorem Created.dependent (hc : Created M s m I E) (hv : M.Valid) (h : (castCsr K s.lp.csr).Independent s.lp.inequality.nrows) :
    ∀ n ∈ M.net.nodes, n.kind = .link → ¬ (n.incoming.length = 1 ∧ n.outgoing.length = 1) → Anchored M.net n.index := by
  classical
  have wf := Solver.Created.wf hv
  obtain ⟨ls, hls, hrows⟩ := hc.rows hv
  have hn : s.lp.inequality.nrows = I.length := by rw [hc.ineq, nrows_ofRows]
  have hnr : (castCsr K s.lp.csr).nrows = (I ++ E).length := by rw [hc.csr]; rfl
  have hnc : (castCsr K s.lp.csr).ncols = m.colToEdges.length := by rw [hc.csr]; rfl
  let u : Nat → ℚ := fun j => ((ls[j]?).map (fun n => loose M.net n.index)).getD 0
  let w : Nat → ℚ := fun i => if i < I.length then 0 else u (i - I.length)
  have hw0 : ∀ i < I.length, w i = 0 := fun i hi => if_pos hi
  have hind := h (fun i => ((w i : ℚ) : K)) (by rw [hn]; intro i hi; simp only [hw0 i hi, Rat.cast_zero]) (by
    rw [hnr, hnc]
    intro c hcc
    have hsum := hc.weigh (K := K) hv (fun i => ((w i : ℚ) : K)) (fun d => if d = c then 1 else 0)
    rw [Finset.sum_eq_single c] at hsum
    · simp only [if_true, Rat.cast_one, mul_one] at hsum
      rw [hsum]
      have : (∑ i ∈ range (I ++ E).length, ((w i : ℚ) : K) * ((value ((I ++ E).getD i []) (fun d => if d = c then 1 else 0) : ℚ) : K))
          = ((∑ i ∈ range (I ++ E).length, w i * value ((I ++ E).getD i []) (fun d => if d = c then 1 else 0) : ℚ) : K) := by
        rw [Rat.cast_sum]; simp only [Rat.cast_mul]
      rw [this, Rat.cast_eq_zero, List.length_append, Finset.sum_range_add, Finset.sum_eq_zero, zero_add]
      · have hE : ∀ j ∈ range E.length, w (I.length + j) * value ((I ++ E).getD (I.length + j) []) (fun d => if d = c then 1 else 0)
            = ((ls[j]?).map (fun n => loose M.net n.index * surplus (via m (fun d => if d = c then 1 else 0)) n)).getD 0 := by
          intro j hj
          have hj := Finset.mem_range.1 hj
          have hjl : j < ls.length := by rw [← hrows.length_eq]; exact hj
          have := (List.forall₂_iff_get.1 hrows).2 j hj hjl (fun d => if d = c then 1 else 0)
          simp only [List.get_eq_getElem] at this
          rw [List.getD_eq_getElem _ _ (by rw [List.length_append]; omega), List.getElem_append_right (by omega)]
          simp only [Nat.add_sub_cancel_left, this, w, u]
          rw [if_neg (by omega), List.getElem?_eq_getElem hjl]
          rfl
        rw [Finset.sum_congr rfl hE]
        have hlist := list_sum_range (ls.map (fun n => loose M.net n.index * surplus (via m (fun d => if d = c then 1 else 0)) n))
          (fun q => q) 0
        rw [List.map_id'] at hlist
        simp only [List.length_map, ← hrows.length_eq, List.getD_eq_getElem?_getD, List.getElem?_map] at hlist
        rw [← hlist, hls]
        have hfil : ∀ (g : TNode → ℚ) (p : TNode → Bool) (l : List TNode), (∀ n ∈ l, p n = false → g n = 0) →
            ((l.filter p).map g).sum = (l.map g).sum := by
          intro g p l hl
          induction l with
          | nil => rfl
          | cons a l ih =>
            rw [List.forall_mem_cons] at hl
            rw [List.filter_cons]
            cases hp : p a with
            | true => simp only [if_true, List.map_cons, List.sum_cons, ih hl.2]
            | false => simp only [Bool.false_eq_true, if_false, List.map_cons, List.sum_cons, ih hl.2, hl.1 hp, zero_add]
        rw [hfil, loose_sum wf]
        intro n hnn hp
        simp only [decide_eq_false_iff_not, not_and, not_not] at hp
        by_cases hk : n.kind = .link
        · rw [surplus_oneColumn (hp hk), mul_zero]
        · obtain ⟨k, hkk⟩ := List.mem_iff_getElem?.1 hnn
          have hl : loose M.net n.index = 0 := by
            unfold loose
            rw [if_pos]
            rw [wf.nodeIndex k n hkk]
            exact .here hkk hk
          rw [hl, zero_mul]
      · intro i hi
        rw [hw0 i (Finset.mem_range.1 hi), zero_mul]
    · intro d _ hd
      rw [if_neg hd]; simp
    · intro h0; exact absurd (Finset.mem_range.2 hcc) h0)
  intro n hnn hk hpass
  have hmem : n ∈ ls := by
    rw [hls, List.mem_filter]
    refine ⟨hnn, ?_⟩
    simp only [decide_eq_true_eq]
    refine ⟨hk, ?_⟩
    rintro ⟨i, o, c, h1, h2, _⟩
    exact hpass ⟨by rw [h1]; rfl, by rw [h2]; rfl⟩
  obtain ⟨j, hj⟩ := List.mem_iff_getElem?.1 hmem
  have hjl := (List.getElem?_eq_some_iff.1 hj).1
  rw [hnr] at hind
  have := hind (I.length + j) (by rw [List.length_append, hrows.length_eq]; omega)
  simp only [Rat.cast_eq_zero, w, u] at this
  rw [if_neg (by omega), Nat.add_sub_cancel_left, hj] at this
  simp only [Option.map_some, Option.getD_some] at this
  unfold loose at this
  by_contra hcon
  rw [if_neg hcon] at this
  exact absurd this one_ne_zero

end Verif.IpmLp
