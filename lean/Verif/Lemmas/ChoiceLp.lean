import Verif.Lemmas.SolverKeep

/-!
# Programs with further fixed rows and other columns

An update treats the variable rows of a program alike whatever fixed rows and columns come with them.
-/

namespace Verif.Solver

open Verif.State (NodeKind Edge)
open Verif.Topology (Network TNode)

/-- Rows appended to a program. -/
structure Tail where
  rowLower : List ℚ
  rowUpper : List ℚ
  rowMask : List Nat
  rowStarts : List Nat
  columns : List Nat
  elements : List ℚ

/-- Columns of a program. -/
structure ColPart where
  colLower : List ℚ
  colUpper : List ℚ
  colObj : List ℚ
  colType : List ColType

/-- The program with rows appended and columns exchanged. -/
def Lp.onto (lp : Lp) (t : Tail) (c : ColPart) : Lp :=
  { lp with
    colLower := c.colLower, colUpper := c.colUpper, colObj := c.colObj, colType := c.colType
    rowLower := lp.rowLower ++ t.rowLower, rowUpper := lp.rowUpper ++ t.rowUpper, rowMask := lp.rowMask ++ t.rowMask
    rowStarts := lp.rowStarts ++ t.rowStarts, columns := lp.columns ++ t.columns, elements := lp.elements ++ t.elements }

/-- A program of `nv` rows. -/
structure Base (nv : Nat) (lp : Lp) : Prop where
  lower : lp.rowLower.length = nv
  upper : lp.rowUpper.length = nv
  mask : lp.rowMask.length = nv
  starts : lp.rowStarts.length = nv + 1
  bound : ∀ i ∈ lp.rowStarts, i ≤ lp.columns.length
  elements : lp.columns.length = lp.elements.length

theorem Base.same {nv : Nat} {lp lp' : Lp} (h : Base nv lp) (hs : Same nv lp lp') : Base nv lp' := by
  have e := hs.eq
  refine ⟨by rw [hs.lenLower]; exact h.lower, by rw [hs.lenUpper]; exact h.upper, ?_, ?_, ?_, ?_⟩
  · rw [e]; exact h.mask
  · rw [e]; exact h.starts
  · rw [e]; exact h.bound
  · rw [e]; exact h.elements

theorem modify_append_left {α : Type} (l l' : List α) (i : Nat) (f : α → α) (h : i < l.length) :
    (l ++ l').modify i f = l.modify i f ++ l' := by
  apply List.ext_getElem?
  intro j
  rw [List.getElem?_modify]
  by_cases hj : j < l.length
  · rw [List.getElem?_append_left hj, List.getElem?_append_left (by simpa using hj), List.getElem?_modify]
  · rw [List.getElem?_append_right (by omega), List.getElem?_append_right (by simpa using hj)]
    have : i ≠ j := by omega
    simp [this]

section
variable (t : Tail) (c : ColPart) {nv : Nat}

theorem applyRowBounds_onto {lp : Lp} (hb : Base nv lp) {row : Nat} (hr : row < nv) (l u : ℚ) :
    (lp.onto t c).applyRowBounds row l u = (lp.applyRowBounds row l u).map (·.onto t c) := by
  have h1 : row < lp.rowLower.length := by rw [hb.lower]; exact hr
  have h2 : row < lp.rowUpper.length := by rw [hb.upper]; exact hr
  unfold Lp.applyRowBounds
  have h3 : row < (lp.onto t c).rowLower.length ∧ row < (lp.onto t c).rowUpper.length := by
    simp only [Lp.onto, List.length_append]; omega
  rw [if_pos h3, if_pos ⟨h1, h2⟩]
  simp only [Lp.onto, Option.map_some, modify_append_left _ _ _ _ h1, modify_append_left _ _ _ _ h2]

theorem pushEdges_onto (cols : List Nat) (row : Nat) (k : ℚ) (es : List Nat) : ∀ lp : Lp,
    pushEdges cols row k es (lp.onto t c) = (pushEdges cols row k es lp).map (·.onto t c) := by
  induction es with
  | nil => intro lp; rfl
  | cons e es ih =>
    intro lp
    simp only [pushEdges]
    cases cols[e]? with
    | none => rfl
    | some q => exact ih (lp.pushCoefficient row q k)

theorem pushNode_onto (cols : List Nat) (row : Nat) (n : TNode) (k : ℚ) (lp : Lp) :
    pushNode cols row n k (lp.onto t c) = (pushNode cols row n k lp).map (·.onto t c) := by
  unfold pushNode
  cases n.kind with
  | storage =>
    simp only [pushEdges_onto]
    cases pushEdges cols row k n.incoming lp with
    | none => rfl
    | some lp1 => simp only [Option.map_some, pushEdges_onto]
  | _ => simp only [pushEdges_onto]

theorem pushNodes_onto (net : Network) (cols : List Nat) (row : Nat) (k : ℚ) (is : List Nat) : ∀ lp : Lp,
    pushNodes net cols row k is (lp.onto t c) = (pushNodes net cols row k is lp).map (·.onto t c) := by
  induction is with
  | nil => intro lp; rfl
  | cons i is ih =>
    intro lp
    simp only [pushNodes]
    cases net.nodes[i]? with
    | none => rfl
    | some n =>
      simp only [pushNode_onto]
      cases pushNode cols row n k lp with
      | none => rfl
      | some lp1 => simp only [Option.map_some, ih]

theorem updatePair_onto (net : Network) (cols : List Nat) {row : Nat} (hr : row < nv) (p : Pair) {lp : Lp} (hb : Base nv lp) :
    updatePair net cols row p (lp.onto t c) = (updatePair net cols row p lp).map (·.onto t c) := by
  unfold updatePair
  cases p.f0 with
  | none => rfl
  | some k0 =>
    cases p.f1 with
    | none => rfl
    | some k1 =>
      simp only [pushNodes_onto]
      cases h0 : pushNodes net cols row k0 p.nodes0 lp with
      | none => rfl
      | some lp0 =>
        simp only [Option.map_some, pushNodes_onto]
        cases h1 : pushNodes net cols row k1 p.nodes1 lp0 with
        | none => rfl
        | some lp1 =>
          have hb1 := (hb.same (pushNodes_same net cols hr _ _ _ _ h0)).same (pushNodes_same net cols hr _ _ _ _ h1)
          simp only [Option.map_some, applyRowBounds_onto t c hb1 hr]
          cases lp1.applyRowBounds row p.rhs p.rhs <;> rfl

theorem updatePairs_onto (net : Network) (cols : List Nat) (l : List (Pair × Option Nat)) :
    (∀ q ∈ l, ∀ i, q.2 = some i → i < nv) → ∀ lp : Lp, Base nv lp →
    updatePairs net cols l (lp.onto t c) = (updatePairs net cols l lp).map (·.onto t c) := by
  induction l with
  | nil => intro _ lp _; rfl
  | cons q l ih =>
    obtain ⟨p, o⟩ := q
    intro hl lp hb
    rw [List.forall_mem_cons] at hl
    cases o with
    | none =>
      simp only [updatePairs]
      exact ih hl.2 lp hb
    | some i =>
      simp only [updatePairs, updatePair_onto t c net cols (hl.1 i rfl) p hb]
      cases h : updatePair net cols i p lp with
      | error e => rfl
      | ok lp1 => exact ih hl.2 lp1 (hb.same (updatePair_same net cols (hl.1 i rfl) p _ _ h))

theorem factorLoop_onto (M : Model) (σ : Nat → Option ℚ) (cols : List Nat) (l : List (Nat × List (Option Nat))) :
    (∀ q ∈ l, ∀ i, some i ∈ q.2 → i < nv) → ∀ lp : Lp, Base nv lp →
    factorLoop M σ cols l (lp.onto t c) = (factorLoop M σ cols l lp).map (·.onto t c) := by
  induction l with
  | nil => intro _ lp _; rfl
  | cons q l ih =>
    obtain ⟨k, rows⟩ := q
    intro hl lp hb
    rw [List.forall_mem_cons] at hl
    simp only [factorLoop]
    cases M.aggs[k]? with
    | none => rfl
    | some a =>
      simp only
      cases a.factors with
      | none => rfl
      | some f =>
        simp only
        cases f.pairs a.nodes σ with
        | error e => rfl
        | ok ps =>
          simp only
          by_cases hlen : rows.length = ps.length
          · have hz : ∀ q ∈ ps.zip rows, ∀ i, q.2 = some i → i < nv := fun q hq i hi =>
              hl.1 i (hi ▸ (List.of_mem_zip (a := q.1) (b := q.2) hq).2)
            rw [if_pos hlen, if_pos hlen, updatePairs_onto t c M.net cols _ hz lp hb]
            cases h : updatePairs M.net cols (ps.zip rows) lp with
            | error e => rfl
            | ok lp1 => exact ih hl.2 lp1 (hb.same (updatePairs_same M.net cols _ hz _ _ h))
          · rw [if_neg hlen, if_neg hlen]; rfl

theorem aggLoop_onto (st : StepState) (l : List (Nat × AggNode)) : (∀ q ∈ l, q.1 < nv) → ∀ lp : Lp, Base nv lp →
    aggLoop st l (lp.onto t c) = (aggLoop st l lp).map (·.onto t c) := by
  induction l with
  | nil => intro _ lp _; rfl
  | cons q l ih =>
    obtain ⟨row, a⟩ := q
    intro hl lp hb
    rw [List.forall_mem_cons] at hl
    simp only [aggLoop]
    cases valueOr 0 st.metric a.minFlow with
    | none => rfl
    | some lo =>
      cases valueOr f64MAX st.metric a.maxFlow with
      | none => rfl
      | some hi =>
        simp only [applyRowBounds_onto t c hb hl.1]
        cases h : lp.applyRowBounds row lo hi with
        | none => rfl
        | some lp1 => exact ih hl.2 lp1 (hb.same (same_bounds hl.1 h))

theorem vsLoop_onto (st : StepState) (l : List (Nat × Nat)) : (∀ q ∈ l, q.1 < nv) → ∀ lp : Lp, Base nv lp →
    vsLoop st l (lp.onto t c) = (vsLoop st l lp).map (·.onto t c) := by
  induction l with
  | nil => intro _ lp _; rfl
  | cons q l ih =>
    obtain ⟨row, v⟩ := q
    intro hl lp hb
    rw [List.forall_mem_cons] at hl
    simp only [vsLoop]
    by_cases ha : st.vsActive v = true
    · rw [if_pos ha, if_pos ha]
      cases st.vsBounds v with
      | none => rfl
      | some p =>
        simp only [applyRowBounds_onto t c hb hl.1]
        cases h : lp.applyRowBounds row (-p.1 / st.days) (p.2 / st.days) with
        | none => rfl
        | some lp1 => exact ih hl.2 lp1 (hb.same (same_bounds hl.1 h))
    · rw [if_neg ha, if_neg ha]
      have e : (lp.onto t c).applyRowBounds row (lp.onto t c).f64NegMax (lp.onto t c).f64Max
          = (lp.applyRowBounds row lp.f64NegMax lp.f64Max).map (·.onto t c) := applyRowBounds_onto t c hb hl.1 _ _
      rw [e]
      cases h : lp.applyRowBounds row lp.f64NegMax lp.f64Max with
      | none => rfl
      | some lp1 => exact ih hl.2 lp1 (hb.same (same_bounds hl.1 h))

theorem nodeBoundsLoop_onto (M : Model) (st : StepState) (l : List NodeRow) : (∀ r ∈ l, r.row < nv) → ∀ lp : Lp, Base nv lp →
    nodeBoundsLoop M st l (lp.onto t c) = (nodeBoundsLoop M st l lp).map (·.onto t c) := by
  induction l with
  | nil => intro _ lp _; rfl
  | cons r l ih =>
    intro hl lp hb
    rw [List.forall_mem_cons] at hl
    simp only [nodeBoundsLoop]
    cases M.net.nodes[r.node]? with
    | none => rfl
    | some n =>
      simp only
      cases nodeBounds n (M.data n.index) st with
      | none => rfl
      | some p =>
        simp only
        cases r.type with
        | continuous =>
          simp only [applyRowBounds_onto t c hb hl.1]
          cases h : lp.applyRowBounds r.row p.1 p.2 with
          | none => rfl
          | some lp1 => exact ih hl.2 lp1 (hb.same (same_bounds hl.1 h))
        | binaryUpper d => exact ih hl.2 (lp.pushCoefficient r.row d p.2) (hb.same (same_push hl.1 _ _ _))
        | binaryLower d => exact ih hl.2 (lp.pushCoefficient r.row d (-p.1)) (hb.same (same_push hl.1 _ _ _))

theorem resetBounds_append (v : ℚ) (ms : List Nat) (bs : List ℚ) (ms' : List Nat) (bs' : List ℚ) (h : ms.length = bs.length)
    (h0 : ∀ k ∈ ms', k ≠ 1) : resetBounds v (ms ++ ms') (bs ++ bs') = resetBounds v ms bs ++ bs' := by
  induction ms generalizing bs with
  | nil =>
    cases bs with
    | cons _ _ => simp at h
    | nil =>
      simp only [List.nil_append, resetBounds]
      induction ms' generalizing bs' with
      | nil => cases bs' <;> rfl
      | cons k ms' ih =>
        rw [List.forall_mem_cons] at h0
        cases bs' with
        | nil => rfl
        | cons b bs' =>
          simp only [resetBounds]
          rw [if_neg h0.1, ih bs' h0.2]
  | cons k ms ih =>
    cases bs with
    | nil => simp at h
    | cons b bs =>
      simp only [List.cons_append, resetBounds]
      rw [ih bs (by simpa using h)]

theorem reset_onto {lp : Lp} (hb : Base nv lp) (h0 : ∀ k ∈ t.rowMask, k ≠ 1) :
    (lp.onto t c).resetRowBounds.resetCoefficients = lp.resetRowBounds.resetCoefficients.onto t c := by
  simp only [Lp.resetRowBounds, Lp.resetCoefficients, Lp.onto]
  rw [resetBounds_append _ _ _ _ _ (hb.mask.trans hb.lower.symm) h0, resetBounds_append _ _ _ _ _ (hb.mask.trans hb.upper.symm) h0]

theorem Base.reset {lp : Lp} (hb : Base nv lp) : Base nv lp.resetRowBounds.resetCoefficients :=
  ⟨by simp only [Lp.resetRowBounds, Lp.resetCoefficients, resetBounds_length]; exact hb.lower,
    by simp only [Lp.resetRowBounds, Lp.resetCoefficients, resetBounds_length]; exact hb.upper, hb.mask, hb.starts, hb.bound, hb.elements⟩

theorem applyCoefficient_onto {lp : Lp} (hb : Base nv lp) {row : Nat} (hr : row < nv) (col : Nat) (v : ℚ) :
    (lp.onto t c).applyCoefficient row col v = (lp.applyCoefficient row col v).map (·.onto t c) ∧
    ∀ lp', lp.applyCoefficient row col v = some lp' → Base nv lp' := by
  have hl := hb.starts
  have e1 : (lp.onto t c).rowStarts[row]? = lp.rowStarts[row]? := List.getElem?_append_left (by omega)
  have e2 : (lp.onto t c).rowStarts[row + 1]? = lp.rowStarts[row + 1]? := List.getElem?_append_left (by omega)
  unfold Lp.applyCoefficient
  rw [e1, e2]
  cases h1 : lp.rowStarts[row]? with
  | none => exact ⟨rfl, fun _ h => by cases h⟩
  | some s =>
    cases h2 : lp.rowStarts[row + 1]? with
    | none => exact ⟨rfl, fun _ h => by cases h⟩
    | some e =>
      have he := hb.bound e (List.mem_of_getElem? h2)
      have ec : (lp.onto t c).columns.take e = lp.columns.take e := by
        show (lp.columns ++ t.columns).take e = _
        rw [List.take_append_of_le_length he]
      simp only [ec]
      cases h3 : colPosition col ((lp.columns.take e).drop s) with
      | none => exact ⟨rfl, fun _ h => by cases h⟩
      | some p =>
        have hp := colPosition_lt _ _ _ h3
        simp only [List.length_drop, List.length_take] at hp
        have hlt : s + p < lp.elements.length := by rw [← hb.elements]; omega
        refine ⟨?_, ?_⟩
        · simp only [Option.map_some, Lp.onto, Option.some.injEq]
          rw [List.set_append_left _ _ hlt]
        · intro lp' h
          simp only [Option.some.injEq] at h
          subst h
          exact ⟨hb.lower, hb.upper, hb.mask, hb.starts, hb.bound, by simpa using hb.elements⟩

theorem applyAll_onto (P : List (Nat × Nat × ℚ)) : (∀ q ∈ P, q.1 < nv) → ∀ lp : Lp, Base nv lp →
    (lp.onto t c).applyAll P = (lp.applyAll P).map (·.onto t c) ∧ ∀ lp', lp.applyAll P = some lp' → Base nv lp' := by
  induction P with
  | nil =>
    intro _ lp hb
    refine ⟨rfl, fun lp' h => ?_⟩
    simp only [Lp.applyAll, Option.some.injEq] at h
    subst h; exact hb
  | cons q P ih =>
    obtain ⟨r, d, v⟩ := q
    intro hl lp hb
    rw [List.forall_mem_cons] at hl
    obtain ⟨h1, h2⟩ := applyCoefficient_onto t c hb hl.1 d v
    simp only [Lp.applyAll]
    rw [h1]
    cases h : lp.applyCoefficient r d v with
    | none => exact ⟨rfl, fun _ h => by cases h⟩
    | some lp1 => exact ih hl.2 lp1 (h2 lp1 h)

end

/-! ## Steps -/

/-- What a step does after the costs. -/
def rowsPart (M : Model) (s : Built) (st : StepState) (lp : Lp) : Except SolveErr Lp :=
  match nodeBoundsLoop M st s.nodeRows lp.resetRowBounds.resetCoefficients with
  | .error e => .error e
  | .ok lp =>
    match factorLoop M st.metric s.cols s.factorRows lp with
    | .error e => .error e
    | .ok lp =>
      match aggLoop st (s.aggRows.zip M.aggs) lp with
      | .error e => .error e
      | .ok lp =>
        match vsLoop st (s.vsRows.zip (List.range M.vs.length)) lp with
        | .error e => .error e
        | .ok lp =>
          match lp.applyUpdatedCoefficients with
          | none => .error .panic
          | some lp => .ok lp

theorem step_rowsPart (M : Model) (s : Built) (st : StepState) : step M s st =
    match objectiveLoop M st.metric s.cols M.net.edges s.lp.zeroObj with
    | .error e => .error e
    | .ok lp => (rowsPart M s st lp).map fun lp => { s with lp := lp } := by
  unfold step update rowsPart
  cases objectiveLoop M st.metric s.cols M.net.edges s.lp.zeroObj with
  | error e => rfl
  | ok lp =>
    simp only
    cases nodeBoundsLoop M st s.nodeRows lp.resetRowBounds.resetCoefficients with
    | error e => rfl
    | ok lp1 =>
      simp only
      cases factorLoop M st.metric s.cols s.factorRows lp1 with
      | error e => rfl
      | ok lp2 =>
        simp only
        cases aggLoop st (s.aggRows.zip M.aggs) lp2 with
        | error e => rfl
        | ok lp3 =>
          simp only
          cases vsLoop st (s.vsRows.zip (List.range M.vs.length)) lp3 with
          | error e => rfl
          | ok lp4 =>
            simp only
            cases lp4.applyUpdatedCoefficients <;> rfl

theorem rowsPart_onto (M : Model) (s : Built) (st : StepState) (t : Tail) (c : ColPart) {nv : Nat} (hr : RowIds s nv) {lp : Lp}
    (hb : Base nv lp) (h0 : ∀ k ∈ t.rowMask, k ≠ 1) :
    rowsPart M s st (lp.onto t c) = (rowsPart M s st lp).map (·.onto t c) ∧
    ∀ lp', rowsPart M s st lp = .ok lp' → Base nv lp' := by
  unfold rowsPart
  rw [reset_onto t c hb h0, nodeBoundsLoop_onto t c M st _ hr.nodes _ hb.reset]
  cases h1 : nodeBoundsLoop M st s.nodeRows lp.resetRowBounds.resetCoefficients with
  | error e => exact ⟨rfl, fun _ h => by cases h⟩
  | ok lp1 =>
    have s1 := nodeBoundsLoop_same M st _ hr.nodes _ _ h1
    have b1 := hb.reset.same s1
    simp only [Except.map]
    rw [factorLoop_onto t c M st.metric s.cols _ hr.factors _ b1]
    cases h2 : factorLoop M st.metric s.cols s.factorRows lp1 with
    | error e => exact ⟨rfl, fun _ h => by cases h⟩
    | ok lp2 =>
      have s2 := factorLoop_same M _ _ _ hr.factors _ _ h2
      have b2 := b1.same s2
      have ha : ∀ q ∈ s.aggRows.zip M.aggs, q.1 < nv := fun q hq => hr.aggs _ (List.of_mem_zip (a := q.1) (b := q.2) hq).1
      simp only [Except.map]
      rw [aggLoop_onto t c st _ ha _ b2]
      cases h3 : aggLoop st (s.aggRows.zip M.aggs) lp2 with
      | error e => exact ⟨rfl, fun _ h => by cases h⟩
      | ok lp3 =>
        have s3 := aggLoop_same st _ ha _ _ h3
        have b3 := b2.same s3
        have hv : ∀ q ∈ s.vsRows.zip (List.range M.vs.length), q.1 < nv :=
          fun q hq => hr.vs _ (List.of_mem_zip (a := q.1) (b := q.2) hq).1
        simp only [Except.map]
        rw [vsLoop_onto t c st _ hv _ b3]
        cases h4 : vsLoop st (s.vsRows.zip (List.range M.vs.length)) lp3 with
        | error e => exact ⟨rfl, fun _ h => by cases h⟩
        | ok lp4 =>
          have s4 := vsLoop_same st _ hv _ _ h4
          have b4 := b3.same s4
          have hcoef : ∀ q ∈ lp4.coefficientsToUpdate, q.1 < nv := by
            intro q hq
            rcases (((s1.trans s2).trans s3).trans s4).coefs q hq with h | h
            · cases h
            · exact h
          obtain ⟨e1, e2⟩ := applyAll_onto t c lp4.coefficientsToUpdate hcoef lp4 b4
          simp only [Except.map]
          unfold Lp.applyUpdatedCoefficients
          have : (lp4.onto t c).coefficientsToUpdate = lp4.coefficientsToUpdate := rfl
          rw [this, e1]
          cases h5 : lp4.applyAll lp4.coefficientsToUpdate with
          | none => exact ⟨rfl, fun _ h => by cases h⟩
          | some lp5 =>
            have b5 := e2 lp5 h5
            refine ⟨rfl, fun lp' h => ?_⟩
            simp only [Option.map_some, Except.ok.injEq] at h
            subst h
            exact ⟨b5.lower, b5.upper, b5.mask, b5.starts, b5.bound, b5.elements⟩

/-! ## Rows -/

theorem entries_onto {nv : Nat} {lp : Lp} (hb : Base nv lp) (t : Tail) (c : ColPart) (i : Nat) (hi : i < nv) :
    (lp.onto t c).entries i = lp.entries i := by
  have hl := hb.starts
  have e : ∀ j, j ≤ nv → (lp.onto t c).rowStarts.getD j 0 = lp.rowStarts.getD j 0 := by
    intro j hj
    rw [List.getD_eq_getElem?_getD, List.getD_eq_getElem?_getD]
    show ((lp.rowStarts ++ t.rowStarts)[j]?).getD 0 = _
    rw [List.getElem?_append_left (by omega)]
  have hz : (lp.onto t c).columns.zip (lp.onto t c).elements = lp.columns.zip lp.elements ++ t.columns.zip t.elements := by
    show (lp.columns ++ t.columns).zip (lp.elements ++ t.elements) = _
    rw [List.zip_append hb.elements]
  unfold Lp.entries
  rw [e i (by omega), e (i + 1) (by omega), hz, List.take_append_of_le_length]
  rw [List.length_zip, ← hb.elements, Nat.min_self, List.getD_eq_getElem?_getD, List.getElem?_eq_getElem (by omega)]
  exact hb.bound _ (List.getElem_mem _)

/-- The rows of a program with more rows: its own, and the fixed rows of the builder. -/
theorem rowsHold_onto {b : LpBuilder} {lp : Lp} {t : Tail} {c : ColPart} (hb : Base b.rows.length lp)
    (hk : KeepInv b (lp.onto t c)) (x : Nat → ℚ) :
    (lp.onto t c).RowsHold x ↔ lp.RowsHold x ∧ ∀ r ∈ b.fixedRows, r.Holds b.f64Max x := by
  constructor
  · intro h
    refine ⟨?_, hk.fixed h⟩
    intro i lo hi hlo hhi
    have hi' : i < b.rows.length := by rw [← hb.lower]; exact (List.getElem?_eq_some_iff.1 hlo).1
    have := h i lo hi (by show (lp.rowLower ++ t.rowLower)[i]? = _; rw [List.getElem?_append_left (by rw [hb.lower]; exact hi')]; exact hlo)
      (by show (lp.rowUpper ++ t.rowUpper)[i]? = _; rw [List.getElem?_append_left (by rw [hb.upper]; exact hi')]; exact hhi)
    rwa [entries_onto hb t c i hi'] at this
  · rintro ⟨h1, h2⟩ i lo hi hlo hhi
    by_cases hi' : i < b.rows.length
    · rw [entries_onto hb t c i hi']
      apply h1 i lo hi
      · have : (lp.rowLower ++ t.rowLower)[i]? = some lo := hlo
        rwa [List.getElem?_append_left (by rw [hb.lower]; exact hi')] at this
      · have : (lp.rowUpper ++ t.rowUpper)[i]? = some hi := hhi
        rwa [List.getElem?_append_left (by rw [hb.upper]; exact hi')] at this
    · rw [hk.lower i (by omega)] at hlo
      rw [hk.upper i (by omega)] at hhi
      have hlen : i < (b.rows ++ b.fixedRows).length := by
        have := (List.getElem?_eq_some_iff.1 hlo).1
        have hg := b.build_good.lower
        simp only at hg
        rw [hg] at this
        simpa [LpBuilder.allRows] using this
      have hget := List.getElem?_eq_getElem hlen
      obtain ⟨e1, e2, e3, _⟩ := (C19_sparse b).2.2.2.2.2.2.2 _ _ hget
      have hmem : (b.rows ++ b.fixedRows)[i] ∈ b.fixedRows := by
        rw [List.getElem_append_right (by omega)]
        exact List.getElem_mem _
      have hold := h2 _ hmem
      rw [e2] at hlo
      rw [e3] at hhi
      simp only [Option.some.injEq] at hlo hhi
      rw [← hlo, ← hhi, hk.entries_fixed _ (by omega) hlen, e1]
      exact hold

end Verif.Solver
