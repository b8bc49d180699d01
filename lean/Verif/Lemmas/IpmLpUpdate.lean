import Verif.Lemmas.IpmLpCreate
import Verif.Lemmas.SolverMain
import Mathlib.Algebra.Order.Field.Basic
import Mathlib.Tactic.FieldSimp

/-! # Updates of the program of the interior point solver -/

namespace Verif.IpmLp

open Finset
open Verif.State (NodeKind Edge)
open Verif.Topology (Network TNode)
open Verif.Solver (OMap ColMap createColMap SetupErr addEdges addNode NodeData StepState Metric valueOr f64MAX edgeCost Model value
  nodeFlow via HasCols colOf Balanced WF ColInv edgesOf)
open Verif.Ipm (rd)

theorem collect_ok {α β : Type} (g : α → Option β) (l : List α) : ∀ vs, collect (l.map g) = some vs ↔ vs.map some = l.map g := by
  induction l with
  | nil => intro vs; cases vs <;> simp [collect]
  | cons a l ih =>
    intro vs
    rw [List.map_cons]
    cases h : g a with
    | none =>
      simp only [collect, reduceCtorEq, false_iff]
      intro hv
      cases vs with
      | nil => simp at hv
      | cons v vs => simp at hv
    | some b =>
      simp only [collect, Option.map_eq_some_iff]
      constructor
      · rintro ⟨ws, h1, rfl⟩
        rw [List.map_cons, (ih ws).1 h1]
      · intro hv
        cases vs with
        | nil => simp at hv
        | cons v vs =>
          simp only [List.map_cons, List.cons.injEq, Option.some.injEq] at hv
          exact ⟨vs, (ih vs).2 hv.2, by rw [hv.1]⟩

theorem collect_get {α β : Type} {g : α → Option β} {l : List α} {vs : List β} (h : collect (l.map g) = some vs) {j : Nat} {a : α}
    (ha : l[j]? = some a) : g a = vs[j]? := by
  have h := (collect_ok g l vs).1 h
  have := congrArg (·[j]?) h
  simp only [List.getElem?_map, ha, Option.map_some] at this
  cases hv : vs[j]? with
  | none => rw [hv] at this; simp at this
  | some b => rw [hv] at this; simpa using this.symm

theorem collect_length {α β : Type} {g : α → Option β} {l : List α} {vs : List β} (h : collect (l.map g) = some vs) :
    vs.length = l.length := by
  have := congrArg List.length ((collect_ok g l vs).1 h)
  simpa using this

theorem collect_some {α β : Type} (g : α → Option β) (l : List α) (h : ∀ a ∈ l, (g a).isSome) : ∃ vs, collect (l.map g) = some vs := by
  obtain ⟨bs, hb⟩ := (Solver.all_some (g := g) l).2 h
  exact ⟨bs, (collect_ok g l bs).2 hb⟩

theorem pad_ok {l : List ℚ} {v : Lanes} (h : pad l = some v) : l ≠ [] ∧ l.length ≤ 4 ∧
    ∀ k : Fin 4, l[min k.val (l.length - 1)]? = some (v k) := by
  unfold pad at h
  cases hl : l.getLast? with
  | none => simp [hl] at h
  | some last =>
    simp only [hl] at h
    have hne : l ≠ [] := by rintro rfl; simp at hl
    have hpos := List.length_pos_iff.2 hne
    split_ifs at h with h4
    simp only [Option.some.injEq] at h
    refine ⟨hne, by omega, fun k => ?_⟩
    have hvk : v k = l.getD k last := by rw [← h]
    rw [hvk]
    by_cases hk : k.val < l.length
    · rw [min_eq_left (by omega), List.getElem?_eq_getElem hk, List.getD_eq_getElem _ _ hk]
    · rw [min_eq_right (by omega), ← List.getLast?_eq_getElem?, hl, List.getD_eq_default _ _ (by omega)]

theorem pad_some {l : List ℚ} (h1 : l ≠ []) (h2 : l.length ≤ 4) : ∃ v, pad l = some v := by
  unfold pad
  cases hl : l.getLast? with
  | none => rw [List.getLast?_eq_none_iff] at hl; exact absurd hl h1
  | some last => exact ⟨_, by simp only; rw [if_neg (by omega)]⟩

/-- A number collected over the states of a group, in the lane of a state. -/
theorem pad_collect {g : StepState → Option ℚ} {states : List StepState} {ub : List ℚ} {v : Lanes}
    (h1 : collect (states.map g) = some ub) (h2 : pad ub = some v) {k : Fin 4} {st : StepState} (hk : laneState states k = some st) :
    g st = some (v k) := by
  obtain ⟨_, _, h3⟩ := pad_ok h2
  have hl := collect_length h1
  unfold laneState at hk
  rw [collect_get h1 hk, ← hl]
  exact h3 k

theorem pad_collect_map {α : Type} {g : StepState → Option α} (q : α → ℚ) {states : List StepState} {us : List α} {v : Lanes}
    (h1 : collect (states.map g) = some us) (h2 : pad (us.map q) = some v) {k : Fin 4} {st : StepState}
    (hk : laneState states k = some st) : ∃ a, g st = some a ∧ q a = v k := by
  obtain ⟨_, _, h3⟩ := pad_ok h2
  have hl := collect_length h1
  unfold laneState at hk
  have h4 := h3 k
  rw [List.length_map, hl, List.getElem?_map, ← collect_get h1 hk] at h4
  exact Option.map_eq_some_iff.1 h4

/-- The rows of the inequalities, in a lane. -/
def Below (I : List Cols) (up : List Lanes) (k : Fin 4) (x : Nat → ℚ) : Prop :=
  ∀ (i : Nat) (r : Cols) (v : Lanes), I[i]? = some r → up[i]? = some v → value r x ≤ v k

theorem below_set {I : List Cols} {up : List Lanes} {i : Nat} {g : (Nat → ℚ) → ℚ} (hi : IsAt I i g) {old : Lanes}
    (ho : up[i]? = some old) (v : Lanes) (k : Fin 4) (x : Nat → ℚ) :
    Below I (up.set i (fun k => min (old k) (v k))) k x ↔ Below I up k x ∧ g x ≤ v k := by
  obtain ⟨r, h1, h2⟩ := hi
  have hlt := (List.getElem?_eq_some_iff.1 ho).1
  constructor
  · intro h
    have hh := h i r _ h1 (by rw [List.getElem?_set_self hlt])
    rw [h2] at hh
    refine ⟨fun j r' w hj hw => ?_, le_trans hh (min_le_right _ _)⟩
    by_cases hij : i = j
    · subst hij
      rw [h1] at hj; cases hj
      rw [ho] at hw; cases hw
      rw [h2]; exact le_trans hh (min_le_left _ _)
    · exact h j r' w hj (by rw [List.getElem?_set_ne hij]; exact hw)
  · rintro ⟨ha, hb⟩ j r' w hj hw
    by_cases hij : i = j
    · subst hij
      rw [List.getElem?_set_self hlt] at hw
      cases hw
      rw [h1] at hj; cases hj
      have := ha i r old h1 ho
      rw [h2] at this ⊢
      exact le_min this hb
    · rw [List.getElem?_set_ne hij] at hw
      exact ha j r' w hj hw

/-- The limit a node sets in an update. -/
def Cap (M : Model) (st : StepState) (f : Nat → ℚ) (n : TNode) : Prop :=
  if n.kind = .storage then ∃ a, volumeLimits n (M.data n.index) st = some a ∧ nodeFlow f n ≤ a.2 ∧ -nodeFlow f n ≤ a.1
  else (M.data n.index).maxFlow ≠ none → ∃ u, flowLimit (M.data n.index) st = some u ∧ nodeFlow f n ≤ u

theorem applyBounds_ok {lp lp' : Lp} {i : Nat} {ub : List ℚ} (h : lp.applyBounds i ub = some lp') :
    ∃ v old, pad ub = some v ∧ lp.rowUpper[i]? = some old ∧
      lp' = { lp with rowUpper := lp.rowUpper.set i (fun k => min (old k) (v k)) } := by
  unfold Lp.applyBounds at h
  cases h1 : pad ub with
  | none => simp [h1] at h
  | some v =>
    cases h2 : lp.rowUpper[i]? with
    | none => simp [h1, h2] at h
    | some old =>
      simp only [h1, h2, Option.some.injEq] at h
      exact ⟨v, old, rfl, rfl, h.symm⟩

theorem isAt_lt {I : List Cols} {i : Nat} {g : (Nat → ℚ) → ℚ} (h : IsAt I i g) : i < I.length := by
  obtain ⟨r, h1, _⟩ := h
  exact (List.getElem?_eq_some_iff.1 h1).1

/-- What a node must have for an update. -/
def HasLimit (M : Model) (st : StepState) (n : TNode) : Prop :=
  if n.kind = .storage then (volumeLimits n (M.data n.index) st).isSome = true
  else (M.data n.index).maxFlow ≠ none → (flowLimit (M.data n.index) st).isSome = true

theorem boundsStep_flow (M : Model) (states : List StepState) (n : TNode) (ids : List Nat) (lp : Lp) (hk : n.kind ≠ .storage) :
    boundsStep M states n ids lp = (if maxFlowUnconstrained (M.data n.index) then some (ids, lp)
      else
        match collect (states.map (flowLimit (M.data n.index))), ids with
        | some ubs, i :: ids => (lp.applyBounds i ubs).map (ids, ·)
        | _, _ => none) := by
  unfold boundsStep
  cases hkk : n.kind with
  | storage => exact absurd hkk hk
  | input => rfl
  | link => rfl
  | output => rfl

theorem boundsStep_ok (M : Model) (m : ColMap) (I : List Cols) (states : List StepState) (n : TNode) (ns : List TNode)
    {ids ids' : List Nat} {lp lp' : Lp} (hn : Named m M.data I (n :: ns) ids) (h : boundsStep M states n ids lp = some (ids', lp')) :
    Named m M.data I ns ids' ∧ ∃ up, lp' = { lp with rowUpper := up } ∧ up.length = lp.rowUpper.length ∧
      (∀ i, I.length ≤ i → up[i]? = lp.rowUpper[i]?) ∧ (∀ k st, laneState states k = some st → HasLimit M st n) ∧
      ∀ k st, laneState states k = some st → ∀ x, Below I up k x ↔ Below I lp.rowUpper k x ∧ Cap M st (via m x) n := by
  unfold Named at hn
  by_cases hk : n.kind = .storage
  · rw [if_pos hk] at hn
    obtain ⟨i, j, rest, rfl, hi, hj, hrest⟩ := hn
    simp only [boundsStep, hk] at h
    cases hc : collect (states.map (volumeLimits n (M.data n.index))) with
    | none => simp [hc] at h
    | some vols =>
      simp only [hc] at h
      cases h1 : lp.applyBounds i (vols.map (·.2)) with
      | none => simp [h1] at h
      | some lp1 =>
        simp only [h1] at h
        obtain ⟨lp2, h2, he⟩ := Option.map_eq_some_iff.1 h
        cases he
        obtain ⟨v1, o1, a1, a2, rfl⟩ := applyBounds_ok h1
        obtain ⟨v2, o2, b1, b2, rfl⟩ := applyBounds_ok h2
        refine ⟨hrest, _, rfl, by simp, ?_, ?_, ?_⟩
        rotate_left
        · intro k st hst
          obtain ⟨l, d1, d2⟩ := pad_collect_map _ hc a1 hst
          unfold HasLimit
          rw [if_pos hk, d1]; rfl
        rotate_left
        · intro q hq
          have := isAt_lt hi
          have := isAt_lt hj
          rw [List.getElem?_set_ne (by omega)]
          simp only
          rw [List.getElem?_set_ne (by omega)]
        · intro k st hst x
          rw [below_set hj b2 v2 k x, below_set hi a2 v1 k x]
          obtain ⟨l, d1, d2⟩ := pad_collect_map _ hc a1 hst
          obtain ⟨l', e1, e2⟩ := pad_collect_map _ hc b1 hst
          rw [d1] at e1; cases e1
          have hcap : Cap M st (via m x) n ↔ nodeFlow (via m x) n ≤ v1 k ∧ -nodeFlow (via m x) n ≤ v2 k := by
            unfold Cap
            rw [if_pos hk, d1]
            simp only [Option.some.injEq, exists_eq_left', d2, e2]
          rw [hcap]
          simp only [and_assoc]
  · rw [if_neg hk] at hn
    have hstep := boundsStep_flow M states n ids lp hk
    rw [hstep] at h
    by_cases hq : (M.data n.index).maxFlow = none
    · rw [if_pos hq] at hn
      have hun : maxFlowUnconstrained (M.data n.index) = true := by unfold maxFlowUnconstrained; rw [hq]; rfl
      rw [if_pos hun] at h
      cases h
      refine ⟨hn, lp.rowUpper, rfl, rfl, fun _ _ => rfl, fun k st _ => by unfold HasLimit; rw [if_neg hk]; exact fun h0 => absurd hq h0,
        fun k st hst x => ?_⟩
      have : Cap M st (via m x) n := by
        unfold Cap; rw [if_neg hk]; intro h0; exact absurd hq h0
      simp [this]
    · rw [if_neg hq] at hn
      obtain ⟨i, rest, rfl, hi, hrest⟩ := hn
      have hun : maxFlowUnconstrained (M.data n.index) ≠ true := by
        unfold maxFlowUnconstrained
        cases h : (M.data n.index).maxFlow with
        | none => exact absurd h hq
        | some _ => simp
      rw [if_neg hun] at h
      cases hc : collect (states.map (flowLimit (M.data n.index))) with
      | none => simp [hc] at h
      | some ubs =>
        simp only [hc] at h
        obtain ⟨lp2, h2, he⟩ := Option.map_eq_some_iff.1 h
        cases he
        obtain ⟨v1, o1, a1, a2, rfl⟩ := applyBounds_ok h2
        refine ⟨hrest, _, rfl, by simp, ?_, fun k st hst => by
          unfold HasLimit; rw [if_neg hk, pad_collect hc a1 hst]; exact fun _ => rfl, ?_⟩
        · intro q hq
          have := isAt_lt hi
          rw [List.getElem?_set_ne (by omega)]
        · intro k st hst x
          rw [below_set hi a2 v1 k x]
          have d1 := pad_collect hc a1 hst
          have hcap : Cap M st (via m x) n ↔ nodeFlow (via m x) n ≤ v1 k := by
            unfold Cap
            rw [if_neg hk, d1]
            simp only [Option.some.injEq, exists_eq_left']
            exact ⟨fun h => h hq, fun h _ => h⟩
          rw [hcap]

theorem boundsLoop_ok (M : Model) (m : ColMap) (I : List Cols) (states : List StepState) (ns : List TNode) :
    ∀ (ids : List Nat) (lp lp' : Lp), Named m M.data I ns ids → boundsLoop M states ns ids lp = some lp' →
    ∃ up, lp' = { lp with rowUpper := up } ∧ up.length = lp.rowUpper.length ∧
      (∀ i, I.length ≤ i → up[i]? = lp.rowUpper[i]?) ∧ (∀ k st, laneState states k = some st → ∀ n ∈ ns, HasLimit M st n) ∧
      ∀ k st, laneState states k = some st → ∀ x, Below I up k x ↔ Below I lp.rowUpper k x ∧ ∀ n ∈ ns, Cap M st (via m x) n := by
  induction ns with
  | nil =>
    intro ids lp lp' _ h
    simp only [boundsLoop, Option.some.injEq] at h
    subst h
    exact ⟨lp.rowUpper, rfl, rfl, fun _ _ => rfl, fun _ _ _ _ h => by simp at h, fun k st _ x => by simp⟩
  | cons n ns ih =>
    intro ids lp lp' hn h
    rw [boundsLoop] at h
    cases hs : boundsStep M states n ids lp with
    | none => simp [hs] at h
    | some p =>
      obtain ⟨ids1, lp1⟩ := p
      simp only [hs] at h
      obtain ⟨hn1, up1, rfl, a2, a3, a5, a4⟩ := boundsStep_ok M m I states n ns hn hs
      obtain ⟨up, c1, c2, c3, c5, c4⟩ := ih ids1 _ lp' hn1 h
      refine ⟨up, c1, by rw [c2]; exact a2, fun i hi => by rw [c3 i hi]; exact a3 i hi,
        fun k st hst => List.forall_mem_cons.2 ⟨a5 k st hst, c5 k st hst⟩, fun k st hst x => ?_⟩
      rw [c4 k st hst x, a4 k st hst x, List.forall_mem_cons, and_assoc]

theorem applyBounds_some {lp : Lp} {i : Nat} {ub : List ℚ} (h1 : ub ≠ []) (h2 : ub.length ≤ 4) (h3 : i < lp.rowUpper.length) :
    ∃ lp', lp.applyBounds i ub = some lp' ∧ lp'.rowUpper.length = lp.rowUpper.length := by
  obtain ⟨v, hv⟩ := pad_some h1 h2
  refine ⟨{ lp with rowUpper := lp.rowUpper.set i (fun k => min (lp.rowUpper[i] k) (v k)) }, ?_, by simp⟩
  unfold Lp.applyBounds
  rw [hv, List.getElem?_eq_getElem h3]

theorem boundsStep_some (M : Model) (m : ColMap) (I : List Cols) (states : List StepState) (h0 : states ≠ []) (h4 : states.length ≤ 4)
    (n : TNode) (ns : List TNode) (ids : List Nat) (lp : Lp) (hn : Named m M.data I (n :: ns) ids) (hlen : I.length ≤ lp.rowUpper.length)
    (hdef : ∀ st ∈ states, HasLimit M st n) : ∃ p, boundsStep M states n ids lp = some p := by
  unfold Named at hn
  by_cases hk : n.kind = .storage
  · rw [if_pos hk] at hn
    obtain ⟨i, j, rest, rfl, hi, hj, hrest⟩ := hn
    obtain ⟨vols, hc⟩ := collect_some (volumeLimits n (M.data n.index)) states (fun st hst => by
      have := hdef st hst; unfold HasLimit at this; rwa [if_pos hk] at this)
    have hl := collect_length hc
    have hne : vols ≠ [] := by rintro rfl; simp at hl; exact h0 (List.length_eq_zero_iff.1 hl.symm)
    obtain ⟨lp1, a1, a2⟩ := applyBounds_some (lp := lp) (i := i) (ub := vols.map (·.2)) (by simpa using hne) (by simp; omega)
      (lt_of_lt_of_le (isAt_lt hi) hlen)
    obtain ⟨lp2, b1, b2⟩ := applyBounds_some (lp := lp1) (i := j) (ub := vols.map (·.1)) (by simpa using hne) (by simp; omega)
      (by rw [a2]; exact lt_of_lt_of_le (isAt_lt hj) hlen)
    exact ⟨(rest, lp2), by simp only [boundsStep, hk, hc, a1, b1, Option.map_some]⟩
  · rw [if_neg hk] at hn
    have hstep := boundsStep_flow M states n ids lp hk
    rw [hstep]
    by_cases hq : (M.data n.index).maxFlow = none
    · have hun : maxFlowUnconstrained (M.data n.index) = true := by unfold maxFlowUnconstrained; rw [hq]; rfl
      exact ⟨_, by rw [if_pos hun]⟩
    · rw [if_neg hq] at hn
      obtain ⟨i, rest, rfl, hi, hrest⟩ := hn
      have hun : maxFlowUnconstrained (M.data n.index) ≠ true := by
        unfold maxFlowUnconstrained
        cases h : (M.data n.index).maxFlow with
        | none => exact absurd h hq
        | some _ => simp
      obtain ⟨ubs, hc⟩ := collect_some (flowLimit (M.data n.index)) states (fun st hst => by
        have := hdef st hst; unfold HasLimit at this; rw [if_neg hk] at this; exact this hq)
      have hl := collect_length hc
      have hne : ubs ≠ [] := by rintro rfl; simp at hl; exact h0 (List.length_eq_zero_iff.1 hl.symm)
      obtain ⟨lp1, a1, a2⟩ := applyBounds_some (lp := lp) (i := i) (ub := ubs) hne (by omega)
        (lt_of_lt_of_le (isAt_lt hi) hlen)
      exact ⟨(rest, lp1), by rw [if_neg hun]; simp only [hc, a1, Option.map_some]⟩

theorem boundsLoop_some (M : Model) (m : ColMap) (I : List Cols) (states : List StepState) (h0 : states ≠ []) (h4 : states.length ≤ 4)
    (ns : List TNode) : ∀ (ids : List Nat) (lp : Lp), Named m M.data I ns ids → I.length ≤ lp.rowUpper.length →
    (∀ st ∈ states, ∀ n ∈ ns, HasLimit M st n) → ∃ lp', boundsLoop M states ns ids lp = some lp' := by
  induction ns with
  | nil => intro ids lp _ _ _; exact ⟨lp, by simp [boundsLoop]⟩
  | cons n ns ih =>
    intro ids lp hn hlen hdef
    obtain ⟨⟨ids1, lp1⟩, h1⟩ := boundsStep_some M m I states h0 h4 n ns ids lp hn hlen (fun st hst => hdef st hst n (by simp))
    obtain ⟨hn1, up1, he, a2, -⟩ := boundsStep_ok M m I states n ns hn h1
    obtain ⟨lp', c⟩ := ih ids1 lp1 hn1 (by rw [he]; simp only; omega) (fun st hst n' hn' => hdef st hst n' (by simp [hn']))
    exact ⟨lp', by rw [boundsLoop, h1]; exact c⟩

/-! ## The objective -/

/-- The objective given by coefficients per lane. -/
def gainOf (obj : List Lanes) (k : Fin 4) (n : Nat) (x : Nat → ℚ) : ℚ := ∑ c ∈ range n, rd (obj.map (· k)) c * x c

theorem gainOf_set (obj : List Lanes) (k : Fin 4) (n : Nat) (x : Nat → ℚ) (c : Nat) (old v : Lanes) (hc : obj[c]? = some old)
    (hn : obj.length = n) :
    gainOf (obj.set c (fun k => old k + v k)) k n x = gainOf obj k n x + v k * x c := by
  have hlt := (List.getElem?_eq_some_iff.1 hc).1
  unfold gainOf
  rw [← Finset.sum_erase_add _ _ (Finset.mem_range.2 (hn ▸ hlt)), ← Finset.sum_erase_add (range n)
    (fun c => rd (obj.map (· k)) c * x c) (Finset.mem_range.2 (hn ▸ hlt))]
  have h1 : rd ((obj.set c (fun k => old k + v k)).map (· k)) c = old k + v k := by
    unfold rd
    rw [List.getD_eq_getElem?_getD, List.getElem?_map, List.getElem?_set_self hlt]; rfl
  have h2 : rd (obj.map (· k)) c = old k := by
    unfold rd
    rw [List.getD_eq_getElem?_getD, List.getElem?_map, hc]; rfl
  have h3 : ∑ d ∈ (range n).erase c, rd ((obj.set c (fun k => old k + v k)).map (· k)) d * x d
      = ∑ d ∈ (range n).erase c, rd (obj.map (· k)) d * x d := by
    apply Finset.sum_congr rfl
    intro d hd
    have hne : d ≠ c := (Finset.mem_erase.1 hd).1
    congr 1
    unfold rd
    rw [List.getD_eq_getElem?_getD, List.getD_eq_getElem?_getD, List.getElem?_map, List.getElem?_map,
      List.getElem?_set_ne (Ne.symm hne)]
  rw [h1, h2, h3]
  ring

theorem addObj_ok {lp lp' : Lp} {c : Nat} {l : List ℚ} (h : lp.addObj c l = some lp') :
    ∃ v old, pad l = some v ∧ lp.colObj[c]? = some old ∧
      lp' = { lp with colObj := lp.colObj.set c (fun k => old k + v k) } := by
  unfold Lp.addObj at h
  cases h1 : pad l with
  | none => simp [h1] at h
  | some v =>
    cases h2 : lp.colObj[c]? with
    | none => simp [h1, h2] at h
    | some old =>
      simp only [h1, h2, Option.some.injEq] at h
      exact ⟨v, old, rfl, rfl, h.symm⟩

theorem objLoop_ok (M : Model) (states : List StepState) (cols : List Nat) (n : Nat) (es : List Edge) :
    ∀ (lp lp' : Lp), lp.colObj.length = n → objLoop M states cols es lp = some lp' →
    ∃ obj, lp' = { lp with colObj := obj } ∧ obj.length = n ∧
      ∀ k st, laneState states k = some st → ∃ cs, es.map (edgeCost M st.metric) = cs.map some ∧
        ∀ x, gainOf obj k n x = gainOf lp.colObj k n x - ((es.zip cs).map (fun p => p.2 * x (cols.getD p.1.index 0))).sum := by
  induction es with
  | nil =>
    intro lp lp' hn h
    simp only [objLoop, Option.some.injEq] at h
    subst h
    exact ⟨lp.colObj, rfl, hn, fun k st _ => ⟨[], rfl, fun x => by simp⟩⟩
  | cons e es ih =>
    intro lp lp' hn h
    simp only [objLoop] at h
    cases hc : collect (states.map (fun s => (edgeCost M s.metric e).map (fun c => if c ≠ 0 then -c else 0))) with
    | none => simp only [hc, reduceCtorEq] at h
    | some cost =>
      cases hcol : cols[e.index]? with
      | none => simp only [hc, hcol, reduceCtorEq] at h
      | some col =>
        simp only [hc, hcol] at h
        cases h1 : lp.addObj col cost with
        | none => simp [h1] at h
        | some lp1 =>
          simp only [h1] at h
          obtain ⟨v, old, a1, a2, rfl⟩ := addObj_ok h1
          obtain ⟨obj, c1, c2, c3⟩ := ih _ lp' (by simpa using hn) h
          refine ⟨obj, c1, c2, fun k st hst => ?_⟩
          obtain ⟨cs, d1, d2⟩ := c3 k st hst
          have hg := pad_collect hc a1 hst
          obtain ⟨q, hq1, hq2⟩ := Option.map_eq_some_iff.1 hg
          refine ⟨q :: cs, by simp [hq1, d1], fun x => ?_⟩
          have hv : v k = -q := by
            rw [← hq2]
            split_ifs with hz
            · rfl
            · rw [not_not] at hz; rw [hz]; simp
          rw [d2 x]
          simp only
          rw [gainOf_set _ _ _ _ _ _ _ a2 hn, hv]
          simp only [List.zip_cons_cons, List.map_cons, List.sum_cons, List.getD_eq_getElem?_getD, hcol, Option.getD_some]
          ring

theorem objLoop_some (M : Model) (states : List StepState) (h0 : states ≠ []) (h4 : states.length ≤ 4) (cols : List Nat)
    (es : List Edge) : ∀ lp : Lp, (∀ e ∈ es, ∃ c, cols[e.index]? = some c ∧ c < lp.colObj.length) →
    (∀ st ∈ states, ∀ e ∈ es, (edgeCost M st.metric e).isSome) → ∃ lp', objLoop M states cols es lp = some lp' := by
  induction es with
  | nil => intro lp _ _; exact ⟨lp, by simp [objLoop]⟩
  | cons e es ih =>
    intro lp hcols hdef
    rw [List.forall_mem_cons] at hcols
    obtain ⟨⟨c, hc1, hc2⟩, hcols⟩ := hcols
    obtain ⟨cost, hc⟩ := collect_some (fun s : StepState => (edgeCost M s.metric e).map (fun c => if c ≠ 0 then -c else 0)) states
      (fun st hst => by rw [Option.isSome_map]; exact hdef st hst e (by simp))
    have hl := collect_length hc
    have hne : cost ≠ [] := by rintro rfl; simp at hl; exact h0 (List.length_eq_zero_iff.1 hl.symm)
    obtain ⟨v, hv⟩ := pad_some hne (by omega)
    obtain ⟨lp', h⟩ := ih { lp with colObj := lp.colObj.set c (fun k => lp.colObj[c] k + v k) } (by simpa using hcols)
      (fun st hst e' he' => hdef st hst e' (by simp [he']))
    refine ⟨lp', ?_⟩
    have hadd : lp.addObj c cost = some { lp with colObj := lp.colObj.set c (fun k => lp.colObj[c] k + v k) } := by
      unfold Lp.addObj; rw [hv, List.getElem?_eq_getElem hc2]
    simp only [objLoop, hc, hc1, hadd, h]

end Verif.IpmLp
