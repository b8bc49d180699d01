import Verif.Lemmas.IpmLpUpdate
import Verif.Props.Solver

/-! # Programs reached by updates of the interior point solver -/

namespace Verif.IpmLp

open Finset
open Verif.State (NodeKind Edge)
open Verif.Topology (Network TNode)
open Verif.Solver (OMap ColMap createColMap SetupErr addEdges addNode NodeData StepState Metric valueOr f64MAX edgeCost Model value
  nodeFlow via HasCols colOf Balanced WF ColInv edgesOf AtLeast AtMost ValueIs CostIs totalCost)
open Verif.Ipm (rd)

variable {M : Model} {s s' : Built} {m : ColMap} {I E : List Cols}

theorem Created.colEq (hc : Created M s m I E) (hv : M.Valid) (e : Nat) : s.cols.getD e 0 = colOf m e := by
  obtain ⟨_, hinv, _, cols, hb, hlen, hget⟩ := cols_of M hv hc.colMap
  rw [hc.cols] at hb; cases hb
  rw [List.getD_eq_getElem?_getD]
  unfold Verif.Solver.colOf ColMap.col
  by_cases he : e < M.net.edges.length
  · rw [hget e he]
  · rw [List.getElem?_eq_none (by omega)]
    cases hf : m.edgeToCol.find e with
    | none => rfl
    | some c => exact absurd (hinv.bound e c hf) he

theorem Created.flow (hc : Created M s m I E) (hv : M.Valid) (x : Nat → ℚ) : s.edgeFlow x = via m x := by
  funext e
  unfold Built.edgeFlow
  rw [hc.colEq hv]

theorem Created.colBound (hc : Created M s m I E) (hv : M.Valid) {e c : Nat} (h : m.col e = some c) : c < m.colToEdges.length := by
  obtain ⟨_, hinv, _, _⟩ := cols_of M hv hc.colMap
  obtain ⟨es, h1, _⟩ := hinv.fwd e c h
  exact (List.getElem?_eq_some_iff.1 h1).1

theorem Created.colSurj (hc : Created M s m I E) (hv : M.Valid) (c : Nat) (h : c < m.colToEdges.length) :
    ∃ e < M.net.edges.length, colOf m e = c := by
  obtain ⟨_, hinv, _, _⟩ := cols_of M hv hc.colMap
  obtain ⟨h1, h2⟩ := hinv.bwd c _ (List.getElem?_eq_getElem h)
  obtain ⟨e, es, he⟩ := List.exists_cons_of_ne_nil h1
  have := h2 e (by rw [he]; simp)
  exact ⟨e, hinv.bound e c this, by simp [colOf, ColMap.col, this]⟩

theorem Created.row (hc : Created M s m I E) (hv : M.Valid) {n : TNode} (hn : n ∈ M.net.nodes) :
    ∃ r, addNode m n 1 Solver.Row.default = some r ∧ (r.columns.map (·.1)).Pairwise (· < ·) ∧
      (∀ x, value r.columns x = nodeFlow (via m x) n) ∧ (∀ p ∈ r.columns, p.1 < m.colToEdges.length) ∧
      (r.columns = [] ↔ edgesOf n = []) := by
  have hm := hasCols_of M hv hc.colMap
  obtain ⟨r, h1, h2, -, -, h5⟩ := Verif.Solver.addNode_ok m n (hm n hn) 1 Solver.Row.default Solver.Row.sorted_default
  have hk := Solver.addNode_keys m n 1 Solver.Row.default r h1
  refine ⟨r, h1, h2, fun x => by rw [h5]; simp [Solver.Row.default, value], fun p hp => ?_, ?_⟩
  · rcases (hk p.1).1 (List.mem_map_of_mem hp) with h | ⟨e, _, h⟩
    · simp [Solver.Row.default] at h
    · exact hc.colBound hv h
  · constructor
    · intro h0
      by_contra hne
      obtain ⟨e, he⟩ := List.exists_mem_of_ne_nil _ hne
      have hee : e ∈ n.incoming ∨ e ∈ n.outgoing := by
        unfold edgesOf at he
        cases hkk : n.kind <;> rw [hkk] at he <;> simp_all
      obtain ⟨c, hcc⟩ := hm n hn e hee
      have := (hk c).2 (Or.inr ⟨e, he, hcc⟩)
      rw [h0] at this; simp at this
    · intro h0
      by_contra hne
      obtain ⟨p, hp⟩ := List.exists_mem_of_ne_nil _ hne
      rcases (hk p.1).1 (List.mem_map_of_mem hp) with h | ⟨e, he, _⟩
      · simp [Solver.Row.default] at h
      · rw [h0] at he; simp at he

theorem Created.keys (hc : Created M s m I E) (hv : M.Valid) : ∀ r ∈ I ++ E, ∀ p ∈ r, p.1 < m.colToEdges.length := by
  rw [List.forall_mem_append]
  refine ⟨(hc.asks _).2 ?_, ?_⟩
  · intro n hn _ r hr
    obtain ⟨r', h1, _, _, h2, _⟩ := hc.row hv hn
    rw [hr] at h1; cases h1
    refine ⟨h2, fun _ p hp => ?_⟩
    obtain ⟨q, hq, rfl⟩ := List.mem_map.1 hp
    exact h2 q hq
  · intro r hr p hp
    obtain ⟨e, he⟩ := (hc.massKeys r hr).2.2 p hp
    exact hc.colBound hv he

theorem Created.sorted (hc : Created M s m I E) (hv : M.Valid) : ∀ r ∈ I ++ E, (r.map (·.1)).Pairwise (· < ·) := by
  rw [List.forall_mem_append]
  refine ⟨(hc.asks _).2 ?_, fun r hr => (hc.massKeys r hr).2.1⟩
  intro n hn _ r hr
  obtain ⟨r', h1, h2, _⟩ := hc.row hv hn
  rw [hr] at h1; cases h1
  exact ⟨h2, fun _ => by beta_reduce; rw [keys_negative]; exact h2⟩

theorem Created.csr (hc : Created M s m I E) : s.lp.csr = csrOf (I ++ E) m.colToEdges.length := by
  rw [csr_ofRows s.lp I E hc.ineq hc.eq, hc.numCols]

/-- All inequalities below one number. -/
theorem Created.below (hc : Created M s m I E) (hv : M.Valid) (t : ℚ) (x : Nat → ℚ) : (∀ r ∈ I, value r x ≤ t) ↔
    ∀ n ∈ M.net.nodes, if n.kind = .storage then -t ≤ nodeFlow (via m x) n ∧ nodeFlow (via m x) n ≤ t
      else (M.data n.index).maxFlow ≠ none → nodeFlow (via m x) n ≤ t := by
  rw [hc.asks (fun r => value r x ≤ t)]
  apply forall_congr'; intro n
  apply forall_congr'; intro hn
  obtain ⟨r, h1, _, h3, _⟩ := hc.row hv hn
  unfold Asks
  beta_reduce
  constructor
  · intro h
    split_ifs with hk
    · obtain ⟨a, b⟩ := h (Or.inl hk) r h1
      have b := b hk
      rw [value_negative] at b
      rw [h3] at a b
      exact ⟨by linarith, a⟩
    · intro hq
      have := (h (Or.inr hq) r h1).1
      rwa [h3] at this
  · intro h ha r' hr'
    rw [h1] at hr'; cases hr'
    rw [h3, value_negative, h3]
    by_cases hk : n.kind = .storage
    · rw [if_pos hk] at h
      exact ⟨h.2, fun _ => by linarith [h.1]⟩
    · rw [if_neg hk] at h
      rcases ha with ha | ha
      · exact absurd ha hk
      · exact ⟨h ha, fun h0 => absurd h0 hk⟩

theorem update_ok (hc : Created M s m I E) {states : List StepState} (h : update M states s = some s') :
    Created M s' m I E ∧ s'.cols = s.cols ∧
    (∀ k st, laneState states k = some st → ∀ n ∈ M.net.nodes, HasLimit M st n) ∧
    (∀ k st, laneState states k = some st → ∀ x, Below I s'.lp.rowUpper k x ↔
      (∀ r ∈ I, value r x ≤ bMax) ∧ ∀ n ∈ M.net.nodes, Cap M st (via m x) n) ∧
    ∀ k st, laneState states k = some st → ∃ cs, M.net.edges.map (edgeCost M st.metric) = cs.map some ∧
      ∀ x, gainOf s'.lp.colObj k m.colToEdges.length x = -((M.net.edges.zip cs).map (fun p => p.2 * s'.edgeFlow x p.1.index)).sum := by
  unfold update at h
  cases h1 : objLoop M states s.cols M.net.edges s.lp.zeroObj with
  | none => simp [h1] at h
  | some lp1 =>
    simp only [h1] at h
    obtain ⟨obj, rfl, a2, a3⟩ := objLoop_ok M states s.cols m.colToEdges.length M.net.edges _ lp1 (by simp [Lp.zeroObj, hc.objLen]) h1
    cases h2 : boundsLoop M states M.net.nodes s.rowIds (Lp.resetBounds { s.lp.zeroObj with colObj := obj }) with
    | none => simp [h2] at h
    | some lp2 =>
      simp only [h2, Option.some.injEq] at h
      obtain ⟨up, rfl, b2, b3, b5, b4⟩ := boundsLoop_ok M m I states M.net.nodes s.rowIds _ lp2 hc.named h2
      have hreset : (Lp.resetBounds { s.lp.zeroObj with colObj := obj }).rowUpper
          = (s.lp.rowUpper.take I.length).map (fun _ _ => bMax) ++ s.lp.rowUpper.drop I.length := by
        simp only [Lp.resetBounds, Lp.zeroObj, hc.ineq, nrows_ofRows]
      have hlen : (s.lp.rowUpper.take I.length).length = I.length := by
        rw [List.length_take, hc.upLen]; omega
      subst h
      refine ⟨⟨hc.colMap, hc.cols, hc.ineq, hc.eq, hc.numCols, ?_, a2, ?_, hc.named, hc.asks, hc.mass, hc.massKeys, hc.made⟩, rfl, b5, ?_, ?_⟩
      · show up.length = _
        rw [b2, hreset, List.length_append, List.length_map, hlen, List.length_drop, hc.upLen]; omega
      · intro i v hi hg
        have hg : up[i]? = some v := hg
        rw [b3 i hi, hreset, List.getElem?_append_right (by rw [List.length_map, hlen]; exact hi), List.length_map, hlen,
          List.getElem?_drop, Nat.add_sub_cancel' hi] at hg
        exact hc.upZero i v hi hg
      · intro k st hst x
        show Below I up k x ↔ _
        rw [b4 k st hst x]
        apply and_congr _ Iff.rfl
        rw [hreset]
        constructor
        · intro hb r hr
          obtain ⟨i, hi, he⟩ := List.mem_iff_getElem.1 hr
          have := hb i r (fun _ => bMax) (by rw [List.getElem?_eq_getElem hi, he])
            (by rw [List.getElem?_append_left (by rw [List.length_map, hlen]; exact hi), List.getElem?_map,
                  List.getElem?_eq_getElem (by rw [hlen]; exact hi)]; rfl)
          exact this
        · intro hb i r v hr hg
          have hi := (List.getElem?_eq_some_iff.1 hr).1
          rw [List.getElem?_append_left (by rw [List.length_map, hlen]; exact hi), List.getElem?_map] at hg
          obtain ⟨_, _, rfl⟩ := Option.map_eq_some_iff.1 hg
          exact hb r (List.mem_of_getElem? hr)
      · intro k st hst
        obtain ⟨cs, c1, c2⟩ := a3 k st hst
        refine ⟨cs, c1, fun x => ?_⟩
        show gainOf obj k _ x = _
        rw [c2 x]
        have hz : gainOf s.lp.zeroObj.colObj k m.colToEdges.length x = 0 := by
          unfold gainOf
          apply Finset.sum_eq_zero
          intro c _
          have : rd (s.lp.zeroObj.colObj.map (· k)) c = 0 := by
            unfold rd Lp.zeroObj
            rw [List.getD_eq_getElem?_getD, List.getElem?_map, List.getElem?_map]
            cases s.lp.colObj[c]? <;> rfl
          rw [this, zero_mul]
        rw [hz, zero_sub]
        rfl

theorem reach_created (hv : M.Valid) (h : Reach M s) : ∃ m I E, Created M s m I E := by
  induction h with
  | create h =>
    have hne : M.net.edges ≠ [] := by
      intro h0
      unfold create at h
      rw [(Solver.C16_no_edges M.net).1 h0] at h
      simp at h
    obtain ⟨s0, m, I, E, h1, h2⟩ := create_ok M hv hne
    rw [h] at h1; cases h1
    exact ⟨m, I, E, h2⟩
  | update _ h ih =>
    obtain ⟨m, I, E, hc⟩ := ih
    exact ⟨m, I, E, (update_ok hc h).1⟩

/-- The constraints of a lane, row by row. -/
theorem Created.allows (hc : Created M s m I E) (hv : M.Valid) (k : Fin 4) (x : Nat → ℚ) : s.Allows k x ↔
    (∀ e < M.net.edges.length, 0 ≤ via m x e) ∧ Below I s.lp.rowUpper k x ∧ Balanced M.net (via m x) := by
  have hkeys := hc.keys hv
  have hrows : ∀ i (hi : i < (I ++ E).length), ∑ c ∈ range (csrOf (I ++ E) m.colToEdges.length).ncols,
      (csrOf (I ++ E) m.colToEdges.length).entry i c * x c = value (I ++ E)[i] x := fun i hi => entry_sum (I ++ E) _ hkeys hi x
  have hb : ∀ i, i < (I ++ E).length → ∃ v, s.lp.rowUpper[i]? = some v ∧ rd (s.lane k).1 i = v k := by
    intro i hi
    have : i < s.lp.rowUpper.length := by rw [hc.upLen]; rw [List.length_append] at hi; omega
    refine ⟨_, List.getElem?_eq_getElem this, ?_⟩
    unfold Built.lane rd
    rw [List.getD_eq_getElem?_getD, List.getElem?_map, List.getElem?_eq_getElem this]; rfl
  have hn : s.lp.inequality.nrows = I.length := by rw [hc.ineq, nrows_ofRows]
  unfold Built.Allows
  rw [hc.csr, hn, ← hc.mass x]
  have hnr : (csrOf (I ++ E) m.colToEdges.length).nrows = (I ++ E).length := rfl
  constructor
  · rintro ⟨h1, h2, h3⟩
    refine ⟨fun e he => ?_, fun i r v hr hu => ?_, fun r hr => ?_⟩
    · apply h1
      obtain ⟨_, _, hall, _⟩ := cols_of M hv hc.colMap
      obtain ⟨c, hcc⟩ := hall e he
      have : colOf m e = c := by simp [colOf, ColMap.col, hcc]
      rw [this]
      exact hc.colBound hv hcc
    · have hi := (List.getElem?_eq_some_iff.1 hr).1
      have hi' : i < (I ++ E).length := by rw [List.length_append]; omega
      have := h2 i hi' hi
      rw [hrows i hi'] at this
      obtain ⟨w, hw1, hw2⟩ := hb i hi'
      rw [hu] at hw1; cases hw1
      rw [hw2, List.getElem_append_left hi, (List.getElem?_eq_some_iff.1 hr).2] at this
      exact this
    · obtain ⟨j, hj, he⟩ := List.mem_iff_getElem.1 hr
      have hi' : I.length + j < (I ++ E).length := by rw [List.length_append]; omega
      have := h3 (I.length + j) hi' (by omega)
      rw [hrows _ hi'] at this
      obtain ⟨w, hw1, hw2⟩ := hb _ hi'
      rw [hw2, hc.upZero _ w (by omega) hw1, List.getElem_append_right (by omega)] at this
      simp only [Nat.add_sub_cancel_left, he] at this
      exact this
  · rintro ⟨h1, h2, h3⟩
    refine ⟨fun c hcc => ?_, fun i hi hlt => ?_, fun i hi hge => ?_⟩
    · obtain ⟨e, he, hec⟩ := hc.colSurj hv c hcc
      have := h1 e he
      rw [← hec]
      exact this
    · rw [hnr] at hi
      rw [hrows i hi]
      obtain ⟨w, hw1, hw2⟩ := hb i hi
      rw [hw2, List.getElem_append_left hlt]
      exact h2 i _ w (List.getElem?_eq_getElem hlt) hw1
    · rw [hnr] at hi
      rw [hrows i hi]
      obtain ⟨w, hw1, hw2⟩ := hb i hi
      rw [hw2, hc.upZero _ w hge hw1, List.getElem_append_right hge]
      exact h3 _ (List.getElem_mem _)

/-- The limits of an update are those of the node. -/
theorem cap_iff {st : StepState} (hd : 0 < st.days) (f : Nat → ℚ) (n : TNode) (big : ℚ) (hbig : big = bMax)
    (hmin : HasLimit M st n) :
    (Cap M st f n ∧ (if n.kind = .storage then -big ≤ nodeFlow f n ∧ nodeFlow f n ≤ big
      else (M.data n.index).maxFlow ≠ none → nodeFlow f n ≤ big)) ↔
    (n.kind ≠ .storage → ∀ q, (M.data n.index).maxFlow = some q →
      nodeFlow f n ≤ big ∧ ∃ u, q.get st.metric = some u ∧ nodeFlow f n ≤ u) ∧
    (n.kind = .storage → -big ≤ nodeFlow f n ∧ nodeFlow f n ≤ big ∧
      ∃ v, st.volume n.index = some v ∧
        AtLeast st.metric (M.data n.index).minVolume 0 (v + st.days * nodeFlow f n) ∧
        AtMost st.metric (M.data n.index).maxVolume f64MAX (v + st.days * nodeFlow f n)) := by
  unfold Cap
  by_cases hk : n.kind = .storage
  · rw [if_pos hk, if_pos hk]
    simp only [hk, ne_eq, not_true_eq_false, false_implies, true_and, forall_const]
    have key : (∃ a, volumeLimits n (M.data n.index) st = some a ∧ nodeFlow f n ≤ a.2 ∧ -nodeFlow f n ≤ a.1) ↔
        ∃ v, st.volume n.index = some v ∧
        AtLeast st.metric (M.data n.index).minVolume 0 (v + st.days * nodeFlow f n) ∧
        AtMost st.metric (M.data n.index).maxVolume f64MAX (v + st.days * nodeFlow f n) := by
      unfold volumeLimits AtLeast AtMost
      cases hvol : st.volume n.index with
      | none => simp
      | some v =>
        have e1 : ∀ lo : ℚ, -nodeFlow f n ≤ (v - lo) / st.days ↔ lo ≤ v + st.days * nodeFlow f n := by
          intro lo
          rw [le_div_iff₀ hd]
          constructor <;> intro h <;> nlinarith
        have e2 : ∀ hi : ℚ, nodeFlow f n ≤ (hi - v) / st.days ↔ v + st.days * nodeFlow f n ≤ hi := by
          intro hi
          rw [le_div_iff₀ hd]
          constructor <;> intro h <;> nlinarith
        cases hmn : (M.data n.index).minVolume with
        | none =>
          cases hmx : (M.data n.index).maxVolume with
          | none =>
            simp only [valueOr, Option.some.injEq, exists_eq_left', e1, e2]
            exact and_comm
          | some q =>
            cases hq : q.get st.metric with
            | none => simp [valueOr, hq]
            | some u =>
              simp only [valueOr, hq, Option.some.injEq, exists_eq_left', e1, e2]
              exact and_comm
        | some p =>
          cases hp : p.get st.metric with
          | none => simp [valueOr, hp]
          | some lo =>
            cases hmx : (M.data n.index).maxVolume with
            | none =>
              simp only [valueOr, hp, Option.some.injEq, exists_eq_left', e1, e2]
              exact and_comm
            | some q =>
              cases hq : q.get st.metric with
              | none => simp [valueOr, hp, hq]
              | some u =>
                simp only [valueOr, hp, hq, Option.some.injEq, exists_eq_left', e1, e2]
                exact and_comm
    rw [key]
    constructor
    · rintro ⟨a, b, c⟩; exact ⟨b, c, a⟩
    · rintro ⟨b, c, a⟩; exact ⟨a, b, c⟩
  · rw [if_neg hk, if_neg hk]
    simp only [hk, ne_eq, not_false_eq_true, forall_const, false_implies, and_true]
    cases hmx : (M.data n.index).maxFlow with
    | none => simp
    | some q =>
      unfold HasLimit at hmin
      rw [if_neg hk] at hmin
      have hmin := hmin (by rw [hmx]; simp)
      unfold flowLimit at hmin
      cases hmv' : valueOr 0 st.metric (M.data n.index).minFlow with
      | none => simp [hmv'] at hmin
      | some mv =>
        have hfl : ∀ u, q.get st.metric = some u → flowLimit (M.data n.index) st = some (min u big) := by
          intro u hu
          have hx : valueOr f64MAX st.metric (M.data n.index).maxFlow = some u := by rw [hmx]; exact hu
          unfold flowLimit
          rw [hmv', hx, hbig]
        have hx : valueOr f64MAX st.metric (M.data n.index).maxFlow = q.get st.metric := by rw [hmx]; rfl
        rw [hmv', hx] at hmin
        cases hq : q.get st.metric with
        | none => rw [hq] at hmin; simp at hmin
        | some u =>
          rw [hfl u hq]
          simp only [reduceCtorEq, not_false_eq_true, forall_const, Option.some.injEq, forall_eq', exists_eq_left', hq, le_min_iff]
          constructor
          · rintro ⟨⟨a, b⟩, c⟩; exact ⟨b, a⟩
          · rintro ⟨b, a⟩; exact ⟨⟨a, b⟩, b⟩

end Verif.IpmLp
