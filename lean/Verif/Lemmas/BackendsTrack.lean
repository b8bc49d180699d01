import Verif.Lemmas.Backends

/-! # The program held by a library follows the program of each step -/

namespace Verif.Backends

open Verif.Solver
open Verif.State (NodeKind Edge)
open Verif.Topology (Network TNode)

/-! ## The matrix does not matter to an update -/

/-- The program with other elements. -/
def withE (E : List ℚ) (lp : Lp) : Lp := { lp with elements := E }

theorem applyRowBounds_withE {lp lp' : Lp} {r : Nat} {l u : ℚ} (E : List ℚ) (h : lp.applyRowBounds r l u = some lp') :
    (withE E lp).applyRowBounds r l u = some (withE E lp') := by
  unfold Lp.applyRowBounds at h ⊢
  split_ifs at h with hc
  simp only [Option.some.injEq] at h
  subst h
  exact if_pos hc

theorem objectiveLoop_with (M : Model) (σ : Nat → Option ℚ) (cols : List Nat) (E : List ℚ) (C : List (Nat × Nat × ℚ)) (es : List Edge) :
    ∀ lp lp', objectiveLoop M σ cols es lp = .ok lp' →
      objectiveLoop M σ cols es { lp with elements := E, coefficientsToUpdate := C } =
        .ok { lp' with elements := E, coefficientsToUpdate := C } := by
  induction es with
  | nil =>
    intro lp lp' h
    simp only [objectiveLoop, Except.ok.injEq] at h ⊢
    subst h; rfl
  | cons e es ih =>
    intro lp lp' h
    simp only [objectiveLoop] at h ⊢
    cases h1 : edgeCost M σ e with
    | none => simp [h1] at h
    | some c =>
      simp only [h1] at h ⊢
      cases h2 : cols[e.index]? with
      | none => simp [h2] at h
      | some col =>
        simp only [h2] at h ⊢
        cases h3 : lp.addObj col c with
        | none => simp [h3] at h
        | some lp1 =>
          simp only [h3] at h
          have : ({ lp with elements := E, coefficientsToUpdate := C } : Lp).addObj col c =
              some { lp1 with elements := E, coefficientsToUpdate := C } := by
            unfold Lp.addObj at h3 ⊢
            split_ifs at h3 with hc
            simp only [Option.some.injEq] at h3
            subst h3
            simp only
            rw [if_pos hc]
          simp only [this]
          exact ih _ _ h

theorem nodeBoundsLoop_withE (M : Model) (st : StepState) (E : List ℚ) (rs : List NodeRow) : ∀ lp lp',
    nodeBoundsLoop M st rs lp = .ok lp' → nodeBoundsLoop M st rs (withE E lp) = .ok (withE E lp') := by
  induction rs with
  | nil =>
    intro lp lp' h
    simp only [nodeBoundsLoop, Except.ok.injEq] at h ⊢
    subst h; rfl
  | cons r rs ih =>
    intro lp lp' h
    simp only [nodeBoundsLoop] at h ⊢
    cases hn : M.net.nodes[r.node]? with
    | none => simp [hn] at h
    | some n =>
      cases hb : nodeBounds n (M.data n.index) st with
      | none => simp [hn, hb] at h
      | some p =>
        obtain ⟨lo, hi⟩ := p
        simp only [hn, hb] at h ⊢
        cases ht : r.type with
        | continuous =>
          simp only [ht] at h ⊢
          cases ha : lp.applyRowBounds r.row lo hi with
          | none => simp [ha] at h
          | some lp1 =>
            simp only [ha] at h
            simp only [applyRowBounds_withE E ha]
            exact ih _ _ h
        | binaryUpper c => simp only [ht] at h ⊢; exact ih _ _ h
        | binaryLower c => simp only [ht] at h ⊢; exact ih _ _ h

theorem pushEdges_withE (cols : List Nat) (row : Nat) (k : ℚ) (E : List ℚ) (es : List Nat) : ∀ lp lp',
    pushEdges cols row k es lp = some lp' → pushEdges cols row k es (withE E lp) = some (withE E lp') := by
  induction es with
  | nil =>
    intro lp lp' h
    simp only [pushEdges, Option.some.injEq] at h ⊢
    subst h; rfl
  | cons e es ih =>
    intro lp lp' h
    simp only [pushEdges] at h ⊢
    cases hc : cols[e]? with
    | none => simp [hc] at h
    | some c => simp only [hc] at h ⊢; exact ih _ _ h

theorem pushNode_withE (cols : List Nat) (row : Nat) (n : TNode) (k : ℚ) (E : List ℚ) (lp lp' : Lp)
    (h : pushNode cols row n k lp = some lp') : pushNode cols row n k (withE E lp) = some (withE E lp') := by
  unfold pushNode at h ⊢
  cases hk : n.kind with
  | storage =>
    simp only [hk] at h ⊢
    cases h1 : pushEdges cols row k n.incoming lp with
    | none => simp [h1] at h
    | some lp1 =>
      simp only [h1] at h
      simp only [pushEdges_withE cols row k E _ _ _ h1]
      exact pushEdges_withE cols row k E _ _ _ h
  | _ => simp only [hk] at h ⊢; exact pushEdges_withE cols row k E _ _ _ h

theorem pushNodes_withE (net : Network) (cols : List Nat) (row : Nat) (k : ℚ) (E : List ℚ) (is : List Nat) : ∀ lp lp',
    pushNodes net cols row k is lp = some lp' → pushNodes net cols row k is (withE E lp) = some (withE E lp') := by
  induction is with
  | nil =>
    intro lp lp' h
    simp only [pushNodes, Option.some.injEq] at h ⊢
    subst h; rfl
  | cons i is ih =>
    intro lp lp' h
    simp only [pushNodes] at h ⊢
    cases hn : net.nodes[i]? with
    | none => simp [hn] at h
    | some n =>
      simp only [hn] at h ⊢
      cases h1 : pushNode cols row n k lp with
      | none => simp [h1] at h
      | some lp1 =>
        simp only [h1] at h
        simp only [pushNode_withE cols row n k E _ _ h1]
        exact ih _ _ h

theorem updatePair_withE (net : Network) (cols : List Nat) (row : Nat) (p : Pair) (E : List ℚ) (lp lp' : Lp)
    (h : updatePair net cols row p lp = .ok lp') : updatePair net cols row p (withE E lp) = .ok (withE E lp') := by
  unfold updatePair at h ⊢
  cases h0 : p.f0 with
  | none => simp [h0] at h
  | some k0 =>
    cases h1 : p.f1 with
    | none => simp [h0, h1] at h
    | some k1 =>
      simp only [h0, h1] at h ⊢
      cases e1 : pushNodes net cols row k0 p.nodes0 lp with
      | none => simp [e1] at h
      | some lp1 =>
        simp only [e1] at h
        simp only [pushNodes_withE net cols row k0 E _ _ _ e1]
        cases e2 : pushNodes net cols row k1 p.nodes1 lp1 with
        | none => simp [e2] at h
        | some lp2 =>
          simp only [e2] at h
          simp only [pushNodes_withE net cols row k1 E _ _ _ e2]
          cases e3 : lp2.applyRowBounds row p.rhs p.rhs with
          | none => simp [e3] at h
          | some lp3 =>
            simp only [e3, Except.ok.injEq] at h
            subst h
            simp only [applyRowBounds_withE E e3]

theorem updatePairs_withE (net : Network) (cols : List Nat) (E : List ℚ) (l : List (Pair × Option Nat)) : ∀ lp lp',
    updatePairs net cols l lp = .ok lp' → updatePairs net cols l (withE E lp) = .ok (withE E lp') := by
  induction l with
  | nil =>
    intro lp lp' h
    simp only [updatePairs, Except.ok.injEq] at h ⊢
    subst h; rfl
  | cons t l ih =>
    obtain ⟨p, o⟩ := t
    intro lp lp' h
    cases o with
    | none => simp only [updatePairs] at h ⊢; exact ih _ _ h
    | some i =>
      simp only [updatePairs] at h ⊢
      cases h1 : updatePair net cols i p lp with
      | error e => simp [h1] at h
      | ok lp1 =>
        simp only [h1] at h
        simp only [updatePair_withE net cols i p E _ _ h1]
        exact ih _ _ h

theorem factorLoop_withE (M : Model) (σ : Nat → Option ℚ) (cols : List Nat) (E : List ℚ) (l : List (Nat × List (Option Nat))) : ∀ lp lp',
    factorLoop M σ cols l lp = .ok lp' → factorLoop M σ cols l (withE E lp) = .ok (withE E lp') := by
  induction l with
  | nil =>
    intro lp lp' h
    simp only [factorLoop, Except.ok.injEq] at h ⊢
    subst h; rfl
  | cons q l ih =>
    obtain ⟨k, rows⟩ := q
    intro lp lp' h
    simp only [factorLoop] at h ⊢
    cases ha : M.aggs[k]? with
    | none => simp [ha] at h
    | some a =>
      simp only [ha] at h ⊢
      cases hf : a.factors with
      | none => simp [hf] at h
      | some f =>
        simp only [hf] at h ⊢
        cases hp : f.pairs a.nodes σ with
        | error e => simp [hp] at h
        | ok ps =>
          simp only [hp] at h ⊢
          by_cases hlen : rows.length = ps.length
          · rw [if_pos hlen] at h ⊢
            cases h1 : updatePairs M.net cols (ps.zip rows) lp with
            | error e => simp [h1] at h
            | ok lp1 =>
              simp only [h1] at h
              simp only [updatePairs_withE M.net cols E _ _ _ h1]
              exact ih _ _ h
          · rw [if_neg hlen] at h
            cases h

theorem aggLoop_withE (st : StepState) (E : List ℚ) (l : List (Nat × AggNode)) : ∀ lp lp',
    aggLoop st l lp = .ok lp' → aggLoop st l (withE E lp) = .ok (withE E lp') := by
  induction l with
  | nil =>
    intro lp lp' h
    simp only [aggLoop, Except.ok.injEq] at h ⊢
    subst h; rfl
  | cons q l ih =>
    obtain ⟨row, a⟩ := q
    intro lp lp' h
    simp only [aggLoop] at h ⊢
    cases h1 : valueOr 0 st.metric a.minFlow with
    | none => simp [h1] at h
    | some lo =>
      cases h2 : valueOr f64MAX st.metric a.maxFlow with
      | none => simp [h1, h2] at h
      | some hi =>
        simp only [h1, h2] at h ⊢
        cases h3 : lp.applyRowBounds row lo hi with
        | none => simp [h3] at h
        | some lp1 =>
          simp only [h3] at h
          simp only [applyRowBounds_withE E h3]
          exact ih _ _ h

theorem vsLoop_withE (st : StepState) (E : List ℚ) (l : List (Nat × Nat)) : ∀ lp lp',
    vsLoop st l lp = .ok lp' → vsLoop st l (withE E lp) = .ok (withE E lp') := by
  induction l with
  | nil =>
    intro lp lp' h
    simp only [vsLoop, Except.ok.injEq] at h ⊢
    subst h; rfl
  | cons q l ih =>
    obtain ⟨row, v⟩ := q
    intro lp lp' h
    simp only [vsLoop] at h ⊢
    by_cases ha : st.vsActive v = true
    · rw [if_pos ha] at h ⊢
      cases h2 : st.vsBounds v with
      | none => simp [h2] at h
      | some p =>
        obtain ⟨av, mi⟩ := p
        simp only [h2] at h ⊢
        cases h3 : lp.applyRowBounds row (-av / st.days) (mi / st.days) with
        | none => simp [h3] at h
        | some lp1 =>
          simp only [h3] at h
          simp only [applyRowBounds_withE E h3]
          exact ih _ _ h
    · rw [if_neg ha] at h ⊢
      cases h3 : lp.applyRowBounds row lp.f64NegMax lp.f64Max with
      | none => simp [h3] at h
      | some lp1 =>
        simp only [h3] at h
        have : (withE E lp).applyRowBounds row (withE E lp).f64NegMax (withE E lp).f64Max = some (withE E lp1) :=
          applyRowBounds_withE E h3
        simp only [this]
        exact ih _ _ h

/-- What an update does to a program, and to one with other elements and other coefficients waiting. -/
theorem update_parts {M : Model} {s u : Built} {st : StepState} {b : LpBuilder} (hr : RowIds s b.rows.length) (hk : KeepInv b s.lp)
    (h : update M s st = .ok u) :
    u = { s with lp := { s.lp with colObj := u.lp.colObj, rowLower := u.lp.rowLower, rowUpper := u.lp.rowUpper, coefficientsToUpdate := u.lp.coefficientsToUpdate } } ∧ KeepInv b u.lp ∧
    (∀ t ∈ u.lp.coefficientsToUpdate, t.1 < b.rows.length) ∧
    ∀ E C, update M { s with lp := { s.lp with elements := E, coefficientsToUpdate := C } } st = .ok { u with lp := withE E u.lp } := by
  unfold update at h
  cases h1 : objectiveLoop M st.metric s.cols M.net.edges s.lp.zeroObj with
  | error e => simp [h1] at h
  | ok lpO =>
    simp only [h1] at h
    obtain ⟨obj, o1, o2⟩ := objectiveLoop_same _ _ _ _ _ _ h1
    have kO : KeepInv b lpO := by
      rw [o1]
      exact hk.withObj obj (o2.trans (by simp [Lp.zeroObj]))
    cases h2 : nodeBoundsLoop M st s.nodeRows lpO.resetRowBounds.resetCoefficients with
    | error e => simp [h2] at h
    | ok lpN =>
      simp only [h2] at h
      cases h3 : factorLoop M st.metric s.cols s.factorRows lpN with
      | error e => simp [h3] at h
      | ok lpF =>
        simp only [h3] at h
        cases h4 : aggLoop st (s.aggRows.zip M.aggs) lpF with
        | error e => simp [h4] at h
        | ok lpA =>
          simp only [h4] at h
          cases h5 : vsLoop st (s.vsRows.zip (List.range M.vs.length)) lpA with
          | error e => simp [h5] at h
          | ok lpV =>
            simp only [h5, Except.ok.injEq] at h
            subst h
            have hsame : Same b.rows.length lpO.resetRowBounds.resetCoefficients lpV :=
              (((nodeBoundsLoop_same M st _ hr.nodes _ _ h2).trans (factorLoop_same M _ _ _ hr.factors _ _ h3)).trans
                (aggLoop_same st _ (fun q hq => hr.aggs _ (List.of_mem_zip (a := q.1) (b := q.2) hq).1) _ _ h4)).trans
                (vsLoop_same st _ (fun q hq => hr.vs _ (List.of_mem_zip (a := q.1) (b := q.2) hq).1) _ _ h5)
            refine ⟨?_, kO.reset.same hsame, ?_, ?_⟩
            · have e := hsame.eq
              rw [o1] at e
              simp only
              congr 1
              rw [e]
              rfl
            · intro t ht
              rcases hsame.coefs t ht with h | h
              · cases h
              · exact h
            · intro E C
              unfold update
              have g1 := objectiveLoop_with M st.metric s.cols E C _ _ _ h1
              have g2 := nodeBoundsLoop_withE M st E _ _ _ h2
              have g3 := factorLoop_withE M st.metric s.cols E _ _ _ h3
              have g4 := aggLoop_withE st E _ _ _ h4
              have g5 := vsLoop_withE st E _ _ _ h5
              have g1' : objectiveLoop M st.metric s.cols M.net.edges ({ s.lp with elements := E, coefficientsToUpdate := C } : Lp).zeroObj =
                  .ok { lpO with elements := E, coefficientsToUpdate := C } := g1
              have g2' : nodeBoundsLoop M st s.nodeRows
                  ({ lpO with elements := E, coefficientsToUpdate := C } : Lp).resetRowBounds.resetCoefficients = .ok (withE E lpN) := g2
              simp only [g1', g2', g3, g4, g5]

/-! ## Setup -/

theorem cbcAddCols_eq : ∀ (l u : List ℚ) (t : List ColType) (o : List ℚ) (h : Held), u.length = l.length → t.length = l.length →
    o.length = l.length → cbcAddCols l u t o h = some { h with
      colLower := h.colLower ++ l, colUpper := h.colUpper ++ u, colObj := h.colObj ++ o,
      integer := h.integer ++ t.map (fun t => decide (t = .integer)) } := by
  intro l
  induction l with
  | nil =>
    intro u t o h hu ht ho
    simp only [List.length_nil, List.length_eq_zero_iff] at hu ht ho
    subst hu ht ho
    simp [cbcAddCols]
  | cons a l ih =>
    intro u t o h hu ht ho
    cases u with
    | nil => simp at hu
    | cons u us =>
      cases t with
      | nil => simp at ht
      | cons t ts =>
        cases o with
        | nil => simp at ho
        | cons o os =>
          simp only [cbcAddCols]
          rw [ih _ _ _ _ (by simpa using hu) (by simpa using ht) (by simpa using ho)]
          cases t <;> simp

theorem cbcAddRows_eq (columns : List Nat) (elements : List ℚ) : ∀ (l u : List ℚ) (starts : List Nat) (h : Held),
    u.length = l.length → starts.length = l.length + 1 → cbcAddRows columns elements l u starts h = some { h with
      rowLower := h.rowLower ++ l, rowUpper := h.rowUpper ++ u,
      rows := h.rows ++ sparseRows l.length starts columns elements } := by
  intro l
  induction l with
  | nil =>
    intro u starts h hu hs
    simp only [List.length_nil, List.length_eq_zero_iff] at hu
    subst hu
    simp [cbcAddRows, sparseRows]
  | cons a l ih =>
    intro u starts h hu hs
    cases u with
    | nil => simp at hu
    | cons u us =>
      match starts, hs with
      | s :: e :: rest, hs =>
        rw [cbcAddRows, ih _ _ _ (by simpa using hu) (by simpa using hs)]
        simp [sparseRows]

theorem highsTypes (t : List ColType) (f : ColType → Bool) (hf : ∀ t, f t = decide (t = .integer)) (n : Nat) (hn : n = t.length) :
    t.zipIdx.foldl (fun l p => l.set p.2 (f p.1)) (List.replicate n false) = t.map (fun t => decide (t = .integer)) := by
  have h := setEach_from (t.map f) 0 (List.replicate n false) (by simp [hn])
  rw [List.zipIdx_map, List.foldl_map] at h
  simp only [Prod.map, id] at h
  rw [h]
  simp [hf]

/-- The program held is that of `s`, and the builder differs from it in the matrix only. -/
structure Tracks (b : LpBuilder) (s : Built) (S : Session) : Prop where
  built : ∃ E C, S.built = { s with lp := { s.lp with elements := E, coefficientsToUpdate := C } }
  keep : KeepInv b s.lp
  ids : RowIds s b.rows.length
  types : s.lp.colType.length = s.lp.colLower.length
  uppers : s.lp.colUpper.length = s.lp.colLower.length
  objs : s.lp.colObj.length = s.lp.colLower.length
  colLower : S.held.colLower = s.lp.colLower
  colUpper : S.held.colUpper = s.lp.colUpper
  colObj : S.held.colObj = s.lp.colObj
  integer : S.held.integer = s.lp.colType.map (fun t => decide (t = .integer))
  rowLower : S.held.rowLower = s.lp.rowLower
  rowUpper : S.held.rowUpper = s.lp.rowUpper
  rows : s.lp.Has S.held.rows
  height : S.held.rows.length = s.lp.rowLower.length
  heights : s.lp.rowUpper.length = s.lp.rowLower.length

theorem setup_tracks (L : Library) {M : Model} {sets : List (List Nat)} {s : Built} (h : create M f64MAX (-f64MAX) sets = .ok s)
    (hL : L = .clp → sets = []) : ∃ b S, L.setup M sets = .ok S ∧ Tracks b s S ∧ S.built = s := by
  obtain ⟨m, b, bins, e, g⟩ := create_general h
  have k : KeepInv b s.lp := by rw [e]; exact KeepInv.build b
  have hh := b.build_has
  rw [← e] at hh
  have hlo : s.lp.rowLower.length = b.rows.length + b.fixedRows.length := by
    rw [e]; exact (LpInv.build b (fun _ => False)).lenLower
  have hup : s.lp.rowUpper.length = b.rows.length + b.fixedRows.length := by
    rw [e]; exact (LpInv.build b (fun _ => False)).lenUpper
  have hlen : ((b.rows ++ b.fixedRows).map (·.columns)).length = s.lp.rowLower.length := by simp [hlo]
  have hsp := Has.sparseRows hh
  rw [hlen] at hsp
  have hst : s.lp.rowStarts.length = s.lp.rowLower.length + 1 := by rw [Has.starts_length hh, hlen]
  have ht : s.lp.colType.length = s.lp.colLower.length := by rw [k.colType, k.colLower, g.colType, g.colLower]; simp
  have hu : s.lp.colUpper.length = s.lp.colLower.length := by rw [k.colUpper, k.colLower, g.colUpper, g.colLower]; simp
  have ho : s.lp.colObj.length = s.lp.colLower.length := by rw [k.colObj, k.colLower, g.colObj, g.colLower]; simp
  unfold Library.setup
  simp only [h]
  have fin : ∀ H : Held, L.given s.lp = some H → H.colLower = s.lp.colLower → H.colUpper = s.lp.colUpper → H.colObj = s.lp.colObj →
      H.integer = s.lp.colType.map (fun t => decide (t = .integer)) → H.rowLower = s.lp.rowLower → H.rowUpper = s.lp.rowUpper →
      H.rows = (b.rows ++ b.fixedRows).map (·.columns) →
      ∃ b S, (match L.given s.lp with | none => .error .panic | some h => .ok ⟨s, h⟩ : Except SetupErr Session) = .ok S ∧
        Tracks b s S ∧ S.built = s := by
    intro H h0 h1 h2 h3 h4 h5 h6 h7
    refine ⟨b, ⟨s, H⟩, by rw [h0], ⟨⟨s.lp.elements, s.lp.coefficientsToUpdate, rfl⟩, k, g.ids, ht, hu, ho, h1, h2, h3, h4, h5, h6, ?_, ?_, ?_⟩, rfl⟩
    · simp only [h7]; exact hh
    · simp only [h7]; exact hlen
    · rw [hup, hlo]
  cases L with
  | clp =>
    have hs := hL rfl
    refine fin (clpSetup s.lp) rfl ?_ ?_ ?_ ?_ rfl rfl ?_
    · exact overwrite_eq _ _ (by simp [Held.resize, hu])
    · exact overwrite_eq _ _ (by simp [Held.resize])
    · exact overwrite_eq _ _ (by simp [Held.resize, hu, ho])
    · show List.replicate _ false = _
      rw [k.colType, g.colType, hu, k.colLower, g.colLower, hs]
      simp
    · exact hsp
  | cbc =>
    refine fin { Held.empty with colLower := s.lp.colLower, colUpper := s.lp.colUpper, colObj := s.lp.colObj,
                                 integer := s.lp.colType.map (fun t => decide (t = .integer)), rowLower := s.lp.rowLower,
                                 rowUpper := s.lp.rowUpper, rows := (b.rows ++ b.fixedRows).map (·.columns) } ?_ rfl rfl rfl rfl rfl rfl rfl
    show cbcSetup s.lp = _
    unfold cbcSetup
    rw [cbcAddCols_eq _ _ _ _ _ hu ht ho]
    simp only
    rw [cbcAddRows_eq _ _ _ _ _ _ (by rw [hup, hlo]) hst, hsp]
    rfl
  | highs =>
    refine fin (highsSetup s.lp) rfl rfl rfl rfl ?_ rfl rfl ?_
    · exact highsTypes _ whole (fun t => by cases t <;> rfl) _ (by rw [hu, ht])
    · show sparseRows s.lp.rowUpper.length _ _ _ = _
      rw [hup, ← hlo]
      exact hsp

/-! ## Steps -/

theorem mask_zero {b : LpBuilder} {lp lp' : Lp} (k : KeepInv b lp) (k' : KeepInv b lp') (i : Nat) (h : lp'.rowMask[i]? = some 0) :
    lp.rowLower[i]? = lp'.rowLower[i]? ∧ lp.rowUpper[i]? = lp'.rowUpper[i]? := by
  rw [k'.mask, (LpInv.build b (fun _ => False)).mask] at h
  by_cases hi : i < b.rows.length
  · rw [if_pos hi] at h; cases h
  · exact ⟨by rw [k.lower i (by omega), k'.lower i (by omega)], by rw [k.upper i (by omega), k'.upper i (by omega)]⟩

theorem step_tracks (L : Library) {M : Model} {b : LpBuilder} {s s' : Built} {S : Session} {st : StepState} (ht : Tracks b s S)
    (h : step M s st = .ok s')
    (hc : L = .cbc → ∀ u, update M s st = .ok u → ∀ t ∈ u.lp.coefficientsToUpdate, False)
    (hh : L = .highs → ∀ u, update M s st = .ok u → ∀ t ∈ u.lp.coefficientsToUpdate, |t.2.2| ≤ 10000000000) :
    ∃ S', L.prepare M S st = .ok S' ∧ Tracks b s' S' := by
  unfold step at h
  cases hu : update M s st with
  | error e => simp [hu] at h
  | ok u =>
    simp only [hu] at h
    cases hp : u.lp.applyUpdatedCoefficients with
    | none => simp [hp] at h
    | some lp2 =>
      simp only [hp, Except.ok.injEq] at h
      subst h
      obtain ⟨hu1, hu2, hu3, hu4⟩ := update_parts ht.ids ht.keep hu
      unfold Lp.applyUpdatedCoefficients at hp
      obtain ⟨lp3, h7, h8⟩ := Option.map_eq_some_iff.1 hp
      have k3 := KeepInv.applyAll _ _ _ hu2 hu3 h7
      obtain ⟨E, C, hb⟩ := ht.built
      have hup : update M S.built st = .ok { u with lp := withE E u.lp } := by rw [hb]; exact hu4 E C
      -- what the update leaves as it is
      have q : u.lp = { s.lp with colObj := u.lp.colObj, rowLower := u.lp.rowLower, rowUpper := u.lp.rowUpper, coefficientsToUpdate := u.lp.coefficientsToUpdate } :=
        congrArg Built.lp hu1
      have lo : u.lp.rowLower.length = s.lp.rowLower.length := by rw [hu2.lenLower, ht.keep.lenLower]
      have up : u.lp.rowUpper.length = s.lp.rowUpper.length := by rw [hu2.lenUpper, ht.keep.lenUpper]
      have ob : u.lp.colObj.length = s.lp.colObj.length := by rw [hu2.colObj, ht.keep.colObj]
      have ma : u.lp.rowMask.length = s.lp.rowLower.length := by
        rw [hu2.mask, ht.keep.lenLower]; exact b.rowsAgree.1
      have hhas : u.lp.Has S.held.rows := by
        rw [q]; exact ⟨ht.rows.starts, ht.rows.columns, ht.rows.elements⟩
      let H : Held := { S.held with colObj := u.lp.colObj, rowLower := u.lp.rowLower, rowUpper := u.lp.rowUpper }
      obtain ⟨q3, rows, q4, q5⟩ := Has.modifyAll u.lp.coefficientsToUpdate u.lp lp3 H hhas h7
      have hlen : rows.length = S.held.rows.length := by
        have e1 := Has.starts_length q5
        have e2 := Has.starts_length hhas
        rw [q3] at e1
        have e1' : u.lp.rowStarts.length = rows.length + 1 := e1
        omega
      have hchange : L.change (withE E u.lp) S.held = some { H with rows := rows } := by
        cases L with
        | clp =>
          show some (clpUpdate (withE E u.lp) S.held) = _
          unfold clpUpdate
          simp only [withE]
          rw [overwrite_eq _ _ (by rw [ht.colObj, ob]), overwrite_eq _ _ (by rw [ht.rowLower, lo]), overwrite_eq _ _ (by rw [ht.rowUpper, up])]
          exact congrArg some q4
        | cbc =>
          have hnil : u.lp.coefficientsToUpdate = [] := by
            cases hx : u.lp.coefficientsToUpdate with
            | nil => rfl
            | cons t l => exact (hc rfl u hu t (by rw [hx]; simp)).elim
          show cbcUpdate (withE E u.lp) S.held = _
          unfold cbcUpdate
          rw [if_pos (by show u.lp.coefficientsToUpdate.isEmpty = true; rw [hnil]; rfl)]
          simp only [withE]
          rw [setEach_eq _ _ (by rw [ht.colObj, ob]), setEach_eq _ _ (by rw [ht.rowLower, lo]), setEach_eq _ _ (by rw [ht.rowUpper, up])]
          rw [hnil] at q4
          exact congrArg some q4
        | highs =>
          show some (highsUpdate (withE E u.lp) S.held) = _
          unfold highsUpdate
          simp only [withE]
          rw [overwrite_eq _ _ (by rw [ht.colObj, ob]),
            overwriteMasked_eq _ _ _ (by rw [ht.rowLower, lo]) (by rw [ma, ht.rowLower])
              (fun i hi => by rw [ht.rowLower]; exact (mask_zero ht.keep hu2 i hi).1),
            overwriteMasked_eq _ _ _ (by rw [ht.rowUpper, up]) (by rw [ma, ht.rowUpper, ht.heights])
              (fun i hi => by rw [ht.rowUpper]; exact (mask_zero ht.keep hu2 i hi).2),
            foldl_clamp _ (hh rfl u hu)]
          exact congrArg some q4
      refine ⟨⟨{ u with lp := withE E u.lp }, { H with rows := rows }⟩, ?_, ?_⟩
      · unfold Library.prepare
        simp only [hup, hchange]
      · have e3 : lp2 = { u.lp with elements := lp3.elements, coefficientsToUpdate := [] } := by
          rw [← h8, q3]
        subst e3
        refine ⟨⟨E, u.lp.coefficientsToUpdate, rfl⟩, ?_, ?_, ?_, ?_, ?_, ?_, ?_, rfl, ?_, rfl, rfl, ?_, ?_, ?_⟩
        · exact ⟨hu2.colLower, hu2.colUpper, hu2.colType, hu2.colObj, hu2.mask, hu2.lenLower, hu2.lenUpper, hu2.lower, hu2.upper,
            hu2.starts, hu2.columns, k3.elements⟩
        · rw [hu1]; exact ⟨ht.ids.nodes, ht.ids.factors, ht.ids.aggs, ht.ids.vs⟩
        · show u.lp.colType.length = u.lp.colLower.length
          rw [q]; exact ht.types
        · show u.lp.colUpper.length = u.lp.colLower.length
          rw [q]; exact ht.uppers
        · show u.lp.colObj.length = u.lp.colLower.length
          rw [ob, ht.objs, q]
        · show S.held.colLower = u.lp.colLower
          rw [ht.colLower, q]
        · show S.held.colUpper = u.lp.colUpper
          rw [ht.colUpper, q]
        · show S.held.integer = u.lp.colType.map _
          rw [ht.integer, q]
        · rw [q3] at q5
          exact ⟨q5.starts, q5.columns, q5.elements⟩
        · show rows.length = u.lp.rowLower.length
          rw [hlen, ht.height, lo]
        · show u.lp.rowUpper.length = u.lp.rowLower.length
          rw [up, lo, ht.heights]

theorem steps_track (L : Library) {M : Model} {b : LpBuilder} (sets : List (List Nat)) : ∀ (sts : List StepState) (s s' : Built) (S : Session),
    Tracks b s S → Suits L M sets sts s → programs M sts s = .ok s' → ∃ S', L.prepareAll M sts S = .ok S' ∧ Tracks b s' S' := by
  intro sts
  induction sts with
  | nil =>
    intro s s' S ht _ h
    simp only [programs, Except.ok.injEq] at h
    subst h
    exact ⟨S, rfl, ht⟩
  | cons st sts ih =>
    intro s s' S ht hS h
    simp only [programs] at h
    cases h1 : step M s st with
    | error e => simp [h1] at h
    | ok s1 =>
      simp only [h1] at h
      obtain ⟨S1, e1, t1⟩ := step_tracks L ht h1
        (by rintro rfl; exact fun u hu => hS.1 u hu) (by rintro rfl; exact fun u hu => hS.1 u hu)
      have hS' : Suits L M sets sts s1 := by
        cases L with
        | clp => exact hS
        | cbc => exact hS.2 s1 h1
        | highs => exact hS.2 s1 h1
      obtain ⟨S2, e2, t2⟩ := ih s1 s' S1 t1 hS' h
      exact ⟨S2, by rw [Library.prepareAll]; simp only [e1]; exact e2, t2⟩

/-! ## What is held means the same -/

theorem Tracks.feasible {b : LpBuilder} {s : Built} {S : Session} (h : Tracks b s S) (x : Nat → ℚ) :
    S.held.Feasible x ↔ s.lp.Feasible x := by
  constructor
  · rintro ⟨h1, h2, h3⟩
    refine ⟨?_, ?_⟩
    · intro i lo hi hlo hhi
      have hi' : i < S.held.rows.length := by rw [h.height]; exact (List.getElem?_eq_some_iff.1 hlo).1
      have hr := List.getElem?_eq_getElem hi'
      have := h1 i _ lo hi hr (by rw [h.rowLower]; exact hlo) (by rw [h.rowUpper]; exact hhi)
      rw [h.rows.entries i _ hr]
      exact this
    · intro c lo hi hlo hhi
      obtain ⟨g1, g2⟩ := h2 c lo hi (by rw [h.colLower]; exact hlo) (by rw [h.colUpper]; exact hhi)
      refine ⟨g1, g2, fun ht => h3 c ?_⟩
      rw [h.integer, List.getElem?_map, ht]
      rfl
  · rintro ⟨h1, h2⟩
    refine ⟨?_, ?_, ?_⟩
    · intro i row lo hi hr hlo hhi
      rw [h.rowLower] at hlo
      rw [h.rowUpper] at hhi
      have := h1 i lo hi hlo hhi
      rwa [h.rows.entries i row hr] at this
    · intro c lo hi hlo hhi
      rw [h.colLower] at hlo
      rw [h.colUpper] at hhi
      exact ⟨(h2 c lo hi hlo hhi).1, (h2 c lo hi hlo hhi).2.1⟩
    · intro c hc
      rw [h.integer, List.getElem?_map] at hc
      obtain ⟨t, ht, hd⟩ := Option.map_eq_some_iff.1 hc
      have hlt := (List.getElem?_eq_some_iff.1 ht).1
      have h5 : c < s.lp.colLower.length := by rw [← h.types]; exact hlt
      have h6 : c < s.lp.colUpper.length := by rw [h.uppers]; exact h5
      obtain ⟨_, _, g⟩ := h2 c _ _ (List.getElem?_eq_getElem h5) (List.getElem?_eq_getElem h6)
      exact g (by rw [ht]; simpa using hd)

theorem Tracks.objective {b : LpBuilder} {s : Built} {S : Session} (h : Tracks b s S) (x : Nat → ℚ) :
    S.held.objective x = s.lp.objective x := by
  unfold Held.objective Lp.objective
  rw [h.colObj]

theorem Tracks.cols {b : LpBuilder} {s : Built} {S : Session} (h : Tracks b s S) : S.built.cols = s.cols := by
  obtain ⟨E, C, e⟩ := h.built
  rw [e]

end Verif.Backends
