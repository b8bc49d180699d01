import Mathlib.Algebra.Order.BigOperators.Group.List
import Verif.Spec.Merit
import Verif.Lemmas.SolverMain
import Mathlib.Tactic.Linarith
import Mathlib.Tactic.Ring
import Mathlib.Tactic.FieldSimp

/-! # Small changes of flows -/

namespace Verif.Solver

open Verif.State (NodeKind Edge)
open Verif.Topology (Network TNode)

/-! ## Linearity -/

/-- Flows changed by a multiple. -/
def shift (f g : Nat → ℚ) (t : ℚ) (e : Nat) : ℚ := f e + t * g e

theorem sum_shift (f g : Nat → ℚ) (t : ℚ) (l : List Nat) :
    (l.map (shift f g t)).sum = (l.map f).sum + t * (l.map g).sum := by
  induction l with
  | nil => simp
  | cons a l ih => simp only [List.map_cons, List.sum_cons, ih, shift]; ring

theorem nodeFlow_shift (f g : Nat → ℚ) (t : ℚ) (n : TNode) : nodeFlow (shift f g t) n = nodeFlow f n + t * nodeFlow g n := by
  unfold nodeFlow
  cases n.kind <;> simp only [sum_shift]
  ring

theorem flowAt_shift (net : Network) (f g : Nat → ℚ) (t : ℚ) (i : Nat) :
    flowAt net (shift f g t) i = flowAt net f i + t * flowAt net g i := by
  unfold flowAt
  cases net.nodes[i]? with
  | none => simp
  | some n => simpa using nodeFlow_shift f g t n

theorem setFlow_shift (net : Network) (f g : Nat → ℚ) (t : ℚ) (s : List Nat) :
    setFlow (flowAt net (shift f g t)) s = setFlow (flowAt net f) s + t * setFlow (flowAt net g) s := by
  unfold setFlow
  rw [← sum_shift]
  congr 1
  exact List.map_congr_left (fun i _ => flowAt_shift net f g t i)

theorem aggFlow_shift (net : Network) (f g : Nat → ℚ) (t : ℚ) (a : AggNode) :
    aggFlow net (shift f g t) a = aggFlow net f a + t * aggFlow net g a := by
  unfold aggFlow
  induction a.nodes with
  | nil => simp
  | cons s l ih => simp only [List.map_cons, List.sum_cons, ih, setFlow_shift]; ring

theorem vsUse_shift (net : Network) (f g : Nat → ℚ) (t : ℚ) (v : VStore) :
    vsUse net (shift f g t) v = vsUse net f v + t * vsUse net g v := by
  unfold vsUse
  induction v.members with
  | nil => simp
  | cons s l ih => rw [List.map_cons, List.sum_cons, ih, flowAt_shift, List.map_cons, List.map_cons, List.sum_cons, List.sum_cons]; ring

theorem totalCost_shift (M : Model) (cost : TNode → ℚ) (f g : Nat → ℚ) (t : ℚ) :
    totalCost M cost (shift f g t) = totalCost M cost f + t * totalCost M cost g := by
  unfold totalCost
  induction M.net.nodes with
  | nil => simp
  | cons n l ih => rw [List.map_cons, List.sum_cons, ih, nodeFlow_shift, List.map_cons, List.map_cons, List.sum_cons, List.sum_cons]; ring

/-! ## What holds for all small changes -/

/-- It holds for all changes small enough. -/
def Soon (P : ℚ → Prop) : Prop := ∃ ε, 0 < ε ∧ ∀ t, 0 ≤ t → t ≤ ε → P t

theorem Soon.of_all {P : ℚ → Prop} (h : ∀ t, 0 ≤ t → P t) : Soon P := ⟨1, by norm_num, fun t h0 _ => h t h0⟩

theorem Soon.and {P Q : ℚ → Prop} (hp : Soon P) (hq : Soon Q) : Soon (fun t => P t ∧ Q t) := by
  obtain ⟨a, ha, hA⟩ := hp
  obtain ⟨b, hb, hB⟩ := hq
  refine ⟨min a b, lt_min ha hb, fun t h0 h1 => ⟨hA t h0 (le_trans h1 (min_le_left _ _)), hB t h0 (le_trans h1 (min_le_right _ _))⟩⟩

theorem Soon.mono {P Q : ℚ → Prop} (hp : Soon P) (h : ∀ t, 0 ≤ t → P t → Q t) : Soon Q := by
  obtain ⟨a, ha, hA⟩ := hp
  exact ⟨a, ha, fun t h0 h1 => h t h0 (hA t h0 h1)⟩

theorem Soon.all {α : Type} (l : List α) {P : α → ℚ → Prop} (h : ∀ a ∈ l, Soon (P a)) : Soon (fun t => ∀ a ∈ l, P a t) := by
  induction l with
  | nil => exact Soon.of_all (fun _ _ a ha => by simp at ha)
  | cons a l ih =>
    have h1 := (h a (List.mem_cons_self ..)).and (ih (fun b hb => h b (List.mem_cons_of_mem _ hb)))
    refine h1.mono (fun t _ ⟨ha, hl⟩ b hb => ?_)
    rcases List.mem_cons.1 hb with rfl | hb
    · exact ha
    · exact hl b hb

/-- A bound from above is kept by small changes if it is not reached or the change does not lead upwards. -/
theorem Soon.le {a b c : ℚ} (h : a ≤ c) (hb : 0 < b → a < c) : Soon (fun t => a + t * b ≤ c) := by
  by_cases h0 : 0 < b
  · refine ⟨(c - a) / b, div_pos (by linarith [hb h0]) h0, fun t _ h1 => ?_⟩
    have := (le_div_iff₀ h0).1 h1
    linarith
  · refine Soon.of_all (fun t ht => ?_)
    have := mul_nonneg ht (neg_nonneg.2 (not_lt.1 h0))
    linarith [neg_mul_eq_mul_neg t b ▸ this, mul_neg t b]

/-- Likewise from below. -/
theorem Soon.ge {a b c : ℚ} (h : c ≤ a) (hb : b < 0 → c < a) : Soon (fun t => c ≤ a + t * b) := by
  refine (Soon.le (a := -a) (b := -b) (c := -c) (by linarith) (fun h0 => by linarith [hb (by linarith)])).mono (fun t _ h1 => ?_)
  have : t * -b = -(t * b) := by ring
  linarith

theorem valueIs_unique {σ : Nat → Option ℚ} {m : Option Metric} {d v w : ℚ} (h : ValueIs σ m d v) (h' : ValueIs σ m d w) : v = w := by
  cases m with
  | none => rw [show v = d from h, show w = d from h']
  | some m => simp only [ValueIs] at h h'; rw [h] at h'; exact Option.some.inj h'

theorem atLeast_value {σ : Nat → Option ℚ} {m : Option Metric} {d v : ℚ} : AtLeast σ m d v ↔ ∃ l, ValueIs σ m d l ∧ l ≤ v := by
  cases m <;> simp [AtLeast, ValueIs]

theorem atMost_value {σ : Nat → Option ℚ} {m : Option Metric} {d v : ℚ} : AtMost σ m d v ↔ ∃ u, ValueIs σ m d u ∧ v ≤ u := by
  cases m <;> simp [AtMost, ValueIs]

theorem Soon.atMost {σ : Nat → Option ℚ} {m : Option Metric} {d a b : ℚ} (h : AtMost σ m d a) (hb : 0 < b → Under σ m d a) :
    Soon (fun t => AtMost σ m d (a + t * b)) := by
  obtain ⟨u, hu, h1⟩ := atMost_value.1 h
  refine (Soon.le (b := b) h1 (fun h0 => ?_)).mono (fun t _ ht => atMost_value.2 ⟨u, hu, ht⟩)
  obtain ⟨u', hu', h2⟩ := hb h0
  rwa [valueIs_unique hu hu']

theorem Soon.atLeast {σ : Nat → Option ℚ} {m : Option Metric} {d a b : ℚ} (h : AtLeast σ m d a) (hb : b < 0 → Over σ m d a) :
    Soon (fun t => AtLeast σ m d (a + t * b)) := by
  obtain ⟨u, hu, h1⟩ := atLeast_value.1 h
  refine (Soon.ge (b := b) h1 (fun h0 => ?_)).mono (fun t _ ht => atLeast_value.2 ⟨u, hu, ht⟩)
  obtain ⟨u', hu', h2⟩ := hb h0
  rwa [valueIs_unique hu hu']

/-! ## Small changes stay allowed -/

variable {M : Model} {st : StepState} {f g : Nat → ℚ}

theorem soon_edges (h : ∀ e < M.net.edges.length, 0 ≤ f e) (hg : ∀ e < M.net.edges.length, g e < 0 → 0 < f e) :
    Soon (fun t => ∀ e < M.net.edges.length, 0 ≤ shift f g t e) := by
  have := Soon.all (List.range M.net.edges.length) (P := fun e t => 0 ≤ f e + t * g e) (fun e he =>
    Soon.ge (h e (List.mem_range.1 he)) (hg e (List.mem_range.1 he)))
  exact this.mono (fun t _ h1 e he => h1 e (List.mem_range.2 he))

theorem soon_nodes (hd : 0 < st.days) (h : ∀ n ∈ M.net.nodes, NodeOk M st f n) (hn : NodesHaveRoom M st f g) :
    Soon (fun t => ∀ n ∈ M.net.nodes, NodeOk M st (shift f g t) n) := by
  refine Soon.all _ (fun n hm => ?_)
  have h0 := h n hm
  unfold NodeOk at h0
  by_cases hk : n.kind = .storage
  · rw [if_pos hk] at h0
    obtain ⟨v, hv, h1, h2⟩ := h0
    have e1 : ∀ t, v + st.days * nodeFlow (shift f g t) n = v + st.days * nodeFlow f n + t * (st.days * nodeFlow g n) := by
      intro t; rw [nodeFlow_shift]; ring
    have a := Soon.atLeast (b := st.days * nodeFlow g n) h1 (fun h0 =>
      hn.empties n hm hk (by by_contra h3; have := mul_nonneg hd.le (not_lt.1 h3); linarith) v hv)
    have b := Soon.atMost (b := st.days * nodeFlow g n) h2 (fun h0 => hn.fills n hm hk (by
      by_contra h3
      have := mul_nonneg hd.le (neg_nonneg.2 (not_lt.1 h3))
      have e : st.days * -nodeFlow g n = -(st.days * nodeFlow g n) := by ring
      linarith) v hv)
    refine (a.and b).mono (fun t _ ⟨h3, h4⟩ => ?_)
    unfold NodeOk
    rw [if_pos hk]
    exact ⟨v, hv, by rw [e1]; exact h3, by rw [e1]; exact h4⟩
  · rw [if_neg hk] at h0
    refine ((Soon.atLeast h0.1 (hn.falls n hm hk)).and (Soon.atMost h0.2 (hn.rises n hm hk))).mono (fun t _ ⟨h3, h4⟩ => ?_)
    unfold NodeOk
    rw [if_neg hk, nodeFlow_shift]
    exact ⟨h3, h4⟩

theorem soon_vs (hd : 0 < st.days) (ha : Allowed M st f) (hg : GroupsHaveRoom M st f g) :
    Soon (fun t => ∀ (k : Nat) (v : VStore), M.vs[k]? = some v → st.vsActive k = true →
      ∃ available missing, st.vsBounds k = some (available, missing) ∧
        st.days * vsUse M.net (shift f g t) v ≤ available ∧ -(st.days * vsUse M.net (shift f g t) v) ≤ missing) := by
  have h := Soon.all (List.range M.vs.length) (P := fun k t => ∀ v, M.vs[k]? = some v → st.vsActive k = true →
      ∃ available missing, st.vsBounds k = some (available, missing) ∧
        st.days * vsUse M.net (shift f g t) v ≤ available ∧ -(st.days * vsUse M.net (shift f g t) v) ≤ missing) (by
    intro k hk
    have hk := List.mem_range.1 hk
    by_cases hact : st.vsActive k = true
    · have hv := List.getElem?_eq_getElem hk
      obtain ⟨av, mi, h1, h2, h3⟩ := ha.vs k _ hv hact
      have a := Soon.le (b := st.days * vsUse M.net g M.vs[k]) h2 (fun h0 => hg.uses k _ hv hact (by
        by_contra h4
        have := mul_nonneg hd.le (neg_nonneg.2 (not_lt.1 h4))
        have e : st.days * -vsUse M.net g M.vs[k] = -(st.days * vsUse M.net g M.vs[k]) := by ring
        linarith) _ _ h1)
      have b := Soon.le (b := -(st.days * vsUse M.net g M.vs[k])) h3 (fun h0 => hg.returns k _ hv hact (by
        by_contra h4
        have := mul_nonneg hd.le (not_lt.1 h4)
        linarith) _ _ h1)
      refine (a.and b).mono (fun t _ ⟨h4, h5⟩ v hv' _ => ⟨av, mi, h1, ?_, ?_⟩)
      · rw [hv] at hv'; cases hv'
        rw [vsUse_shift]; linarith [mul_comm t (st.days * vsUse M.net g M.vs[k]), mul_add st.days (vsUse M.net f M.vs[k]) (t * vsUse M.net g M.vs[k]),
          show st.days * (t * vsUse M.net g M.vs[k]) = t * (st.days * vsUse M.net g M.vs[k]) by ring]
      · rw [hv] at hv'; cases hv'
        rw [vsUse_shift]; linarith [mul_add st.days (vsUse M.net f M.vs[k]) (t * vsUse M.net g M.vs[k]),
          show st.days * (t * vsUse M.net g M.vs[k]) = t * (st.days * vsUse M.net g M.vs[k]) by ring,
          show t * -(st.days * vsUse M.net g M.vs[k]) = -(t * (st.days * vsUse M.net g M.vs[k])) by ring]
    · exact Soon.of_all (fun t _ v _ hact' => absurd hact' hact))
  exact h.mono (fun t _ h1 k v hv => h1 k (List.mem_range.2 (List.getElem?_eq_some_iff.1 hv).1) v hv)

theorem soon_allowed (hd : 0 < st.days) (ha : Allowed M st f) (hb : Balanced M.net g)
    (he : ∀ e < M.net.edges.length, g e < 0 → 0 < f e) (hn : NodesHaveRoom M st f g) (hg : GroupsHaveRoom M st f g) :
    Soon (fun t => Allowed M st (shift f g t)) := by
  have h1 := soon_edges ha.nonneg he
  have h2 := soon_nodes hd ha.nodes hn
  have h3 := soon_vs hd ha hg
  have h4 : Soon (fun t => ∀ a ∈ M.aggs, AtLeast st.metric a.minFlow 0 (aggFlow M.net (shift f g t) a) ∧
      AtMost st.metric a.maxFlow f64MAX (aggFlow M.net (shift f g t) a)) := by
    refine Soon.all _ (fun a hm => ?_)
    have := ha.aggs a hm
    refine ((Soon.atLeast this.1 (hg.falls a hm)).and (Soon.atMost this.2 (hg.rises a hm))).mono (fun t _ h => ?_)
    rw [aggFlow_shift]
    exact h
  refine (((h1.and h2).and h3).and h4).mono (fun t _ ⟨⟨⟨k1, k2⟩, k3⟩, k4⟩ => ⟨k1, ?_, k2, k4, ?_, k3⟩)
  · intro n hm hk
    rw [sum_shift, sum_shift, ha.balanced n hm hk, hb n hm hk]
  · intro a hm F hF
    obtain ⟨ps, hps, hp⟩ := ha.factors a hm F hF
    refine ⟨ps, hps, fun p hpm => ?_⟩
    obtain ⟨x, y, hx, hy, h⟩ := hp p hpm
    refine ⟨x, y, hx, hy, ?_⟩
    rw [setFlow_shift, setFlow_shift]
    have := hg.factors a hm F ps hF hps p hpm x y hx hy
    rw [← h]
    have e : x * (setFlow (flowAt M.net f) p.nodes0 + t * setFlow (flowAt M.net g) p.nodes0) +
        y * (setFlow (flowAt M.net f) p.nodes1 + t * setFlow (flowAt M.net g) p.nodes1) =
        x * setFlow (flowAt M.net f) p.nodes0 + y * setFlow (flowAt M.net f) p.nodes1 +
        t * (x * setFlow (flowAt M.net g) p.nodes0 + y * setFlow (flowAt M.net g) p.nodes1) := by ring
    rw [e, this]; ring

theorem soon_within {big negBig : ℚ} (hw : WithinLimits M big negBig st f) (hi : Inside M big negBig f) :
    Soon (fun t => WithinLimits M big negBig st (shift f g t)) := by
  have h1 : Soon (fun t => ∀ e ∈ List.range M.net.edges.length, f e + t * g e ≤ big) := Soon.all _ (fun e he =>
    Soon.le (hi.edges e (List.mem_range.1 he)).le (fun _ => hi.edges e (List.mem_range.1 he)))
  have h2 : Soon (fun t => ∀ n ∈ M.net.nodes, constBounds n (M.data n.index) = none →
      negBig ≤ nodeFlow f n + t * nodeFlow g n ∧ nodeFlow f n + t * nodeFlow g n ≤ big) := by
    refine Soon.all _ (fun n hm => ?_)
    by_cases hc : constBounds n (M.data n.index) = none
    · have := hi.nodes n hm hc
      exact ((Soon.ge this.1.le (fun _ => this.1)).and (Soon.le this.2.le (fun _ => this.2))).mono (fun t _ h _ => h)
    · exact Soon.of_all (fun t _ h => absurd h hc)
  have h3 : Soon (fun t => ∀ a ∈ M.aggs, negBig ≤ aggFlow M.net f a + t * aggFlow M.net g a ∧
      aggFlow M.net f a + t * aggFlow M.net g a ≤ big) := by
    refine Soon.all _ (fun a hm => ?_)
    have := hi.aggs a hm
    exact (Soon.ge this.1.le (fun _ => this.1)).and (Soon.le this.2.le (fun _ => this.2))
  have h4 : Soon (fun t => ∀ v ∈ M.vs, negBig ≤ -vsUse M.net f v + t * -vsUse M.net g v ∧
      -vsUse M.net f v + t * -vsUse M.net g v ≤ big) := by
    refine Soon.all _ (fun a hm => ?_)
    have := hi.vs a hm
    exact (Soon.ge this.1.le (fun _ => this.1)).and (Soon.le this.2.le (fun _ => this.2))
  refine (((h1.and h2).and h3).and h4).mono (fun t _ ⟨⟨⟨k1, k2⟩, k3⟩, k4⟩ => ⟨?_, ?_, ?_, ?_, hw.factors⟩)
  · exact fun e he => k1 e (List.mem_range.2 he)
  · intro n hm hc; rw [nodeFlow_shift]; exact k2 n hm hc
  · intro n hm; rw [aggFlow_shift]; exact k3 n hm
  · intro v hm
    rw [vsUse_shift]
    have e : -(vsUse M.net f v + t * vsUse M.net g v) = -vsUse M.net f v + t * -vsUse M.net g v := by ring
    rw [e]; exact k4 v hm

/-- A change that there is room for does not lower the cost. -/
theorem no_bargain {big negBig : ℚ} {cost : TNode → ℚ} (hd : 0 < st.days) (hl : LeastCost M big negBig st cost f)
    (hi : Inside M big negBig f) (hb : Balanced M.net g)
    (he : ∀ e < M.net.edges.length, g e < 0 → 0 < f e) (hn : NodesHaveRoom M st f g) (hg : GroupsHaveRoom M st f g) :
    0 ≤ totalCost M cost g := by
  obtain ⟨ε, h0, h⟩ := (soon_allowed hd hl.allowed hb he hn hg).and (soon_within (g := g) hl.within hi)
  obtain ⟨h1, h2⟩ := h ε h0.le le_rfl
  have := hl.least _ h1 h2
  rw [totalCost_shift] at this
  by_contra h3
  have := mul_neg_of_pos_of_neg h0 (not_le.1 h3)
  linarith

/-! ## Ways -/

theorem sum_count (l es : List Nat) (hl : l.Nodup) : (l.map (along es)).sum = ((es.filter (fun e => e ∈ l)).length : ℚ) := by
  induction es with
  | nil =>
    have : l.map (along []) = l.map (fun _ => (0 : ℚ)) := List.map_congr_left (fun _ _ => by simp [along])
    simp [this]
  | cons e es ih =>
    have h1 : l.map (along (e :: es)) = l.map (shift (along es) (along [e]) 1) :=
      List.map_congr_left (fun x _ => by simp [along, shift, List.count_cons])
    rw [h1, sum_shift, ih]
    have h2 : (l.map (along [e])).sum = if e ∈ l then 1 else 0 := by
      clear ih h1
      induction l with
      | nil => simp
      | cons a l ih =>
        rw [List.nodup_cons] at hl
        simp only [List.map_cons, List.sum_cons, ih hl.2, along, List.count_cons, List.count_nil, List.mem_cons]
        by_cases hea : e = a
        · subst hea; simp [hl.1]
        · simp [hea, beq_iff_eq]
    rw [h2, List.filter_cons]
    by_cases hm : e ∈ l <;> simp [hm]

theorem totalCost_sub (M : Model) (cost : TNode → ℚ) (es es' : List Nat) :
    totalCost M cost (instead es es') = totalCost M cost (along es) - totalCost M cost (along es') := by
  have : instead es es' = shift (along es) (along es') (-1) := by funext e; simp [instead, shift]; ring
  rw [this, totalCost_shift]; ring

section ways

variable {net : Network} (wf : WF net)

include wf

theorem leads_out {e : Nat} {u v n : TNode} (h : Leads net e u v) (hn : n ∈ net.nodes) : e ∈ n.outgoing ↔ n = u := by
  obtain ⟨k, hk⟩ := List.mem_iff_getElem?.1 hn
  rw [wf.mem_outgoing hk, h.2.2]
  have hki := wf.nodeIndex k n hk
  constructor
  · rintro ⟨e', h1, h2⟩
    cases h1
    simp only at h2
    have := h.1
    rw [h2, hk] at this
    exact Option.some.inj this
  · rintro rfl
    exact ⟨_, rfl, hki⟩

theorem leads_in {e : Nat} {u v n : TNode} (h : Leads net e u v) (hn : n ∈ net.nodes) : e ∈ n.incoming ↔ n = v := by
  obtain ⟨k, hk⟩ := List.mem_iff_getElem?.1 hn
  rw [wf.mem_incoming hk, h.2.2]
  have hki := wf.nodeIndex k n hk
  constructor
  · rintro ⟨e', h1, h2⟩
    cases h1
    simp only at h2
    have := h.2.1
    rw [h2, hk] at this
    exact Option.some.inj this
  · rintro rfl
    exact ⟨_, rfl, hki⟩

/-- How often a way leaves a node. -/
theorem way_out {u v : TNode} {es : List Nat} {ls : List TNode} (h : Way net u es ls v) {n : TNode} (hn : n ∈ net.nodes) :
    (n.outgoing.map (along es)).sum = (if n = u then 1 else 0) + (ls.count n : ℚ) := by
  rw [sum_count _ _ (wf.outgoing_nodup hn)]
  induction h with
  | last u v e hl =>
    have := leads_out wf hl hn
    by_cases hu : n = u
    · have hm := this.2 hu
      rw [if_pos hu, List.filter_cons]; simp [hm]
    · have hm : e ∉ n.outgoing := fun h => hu (this.1 h)
      rw [if_neg hu, List.filter_cons]; simp [hm]
  | cons u w v e es ls hl hk hw ih =>
    have := leads_out wf hl hn
    rw [List.filter_cons, List.count_cons]
    have hc : ((if (w == n) = true then 1 else 0 : Nat) : ℚ) = if n = w then 1 else 0 := by
      by_cases h : n = w
      · subst h; simp
      · simp [h, Ne.symm h]
    by_cases hu : n = u
    · have hm := this.2 hu
      simp only [hm, decide_true, if_true, List.length_cons, Nat.cast_add, Nat.cast_one, ih]
      rw [if_pos hu, hc]; ring
    · have hm : e ∉ n.outgoing := fun h => hu (this.1 h)
      simp only [hm, decide_false, Bool.false_eq_true, if_false, Nat.cast_add, ih]
      rw [if_neg hu, hc]; ring

/-- How often a way enters a node. -/
theorem way_in {u v : TNode} {es : List Nat} {ls : List TNode} (h : Way net u es ls v) {n : TNode} (hn : n ∈ net.nodes) :
    (n.incoming.map (along es)).sum = (if n = v then 1 else 0) + (ls.count n : ℚ) := by
  rw [sum_count _ _ (wf.incoming_nodup hn)]
  induction h with
  | last u v e hl =>
    have := leads_in wf hl hn
    by_cases hu : n = v
    · have hm := this.2 hu
      rw [if_pos hu, List.filter_cons]; simp [hm]
    · have hm : e ∉ n.incoming := fun h => hu (this.1 h)
      rw [if_neg hu, List.filter_cons]; simp [hm]
  | cons u w v e es ls hl hk hw ih =>
    have := leads_in wf hl hn
    rw [List.filter_cons, List.count_cons]
    by_cases hu : n = w
    · have hm := this.2 hu
      simp only [hm, decide_true, if_true, List.length_cons, Nat.cast_add, Nat.cast_one, ih]
      subst hu
      simp; ring
    · have hm : e ∉ n.incoming := fun h => hu (this.1 h)
      simp only [hm, decide_false, Bool.false_eq_true, if_false, Nat.cast_add, ih]
      simp [Ne.symm hu]

theorem nodes_nodup : net.nodes.Nodup := by
  rw [List.nodup_iff_getElem?_ne_getElem?]
  intro i j hij hj h
  have h1 := wf.nodeIndex i _ (List.getElem?_eq_getElem (by omega : i < net.nodes.length))
  have h2 := wf.nodeIndex j _ (List.getElem?_eq_getElem hj)
  rw [List.getElem?_eq_getElem (by omega : i < net.nodes.length), List.getElem?_eq_getElem hj] at h
  rw [Option.some.inj h, h2] at h1
  omega

theorem sum_indicator (F : TNode → ℚ) {u : TNode} (hu : u ∈ net.nodes) :
    (net.nodes.map (fun n => F n * (if n = u then 1 else 0))).sum = F u := by
  have key : ∀ l : List TNode, l.Nodup → (l.map (fun n => F n * (if n = u then 1 else 0))).sum = if u ∈ l then F u else 0 := by
    intro l hl
    induction l with
    | nil => simp
    | cons a l ih =>
      rw [List.nodup_cons] at hl
      simp only [List.map_cons, List.sum_cons, ih hl.2, List.mem_cons]
      by_cases h : a = u
      · subst h; simp [hl.1]
      · simp [h, Ne.symm h]
  rw [key _ (nodes_nodup wf), if_pos hu]

theorem sum_counts (F : TNode → ℚ) {ls : List TNode} (hs : ∀ l ∈ ls, l ∈ net.nodes) :
    (net.nodes.map (fun n => F n * (ls.count n : ℚ))).sum = (ls.map F).sum := by
  induction ls with
  | nil => simp
  | cons a ls ih =>
    have h1 : net.nodes.map (fun n => F n * ((a :: ls).count n : ℚ)) =
        net.nodes.map (fun n => F n * (ls.count n : ℚ) + F n * (if n = a then 1 else 0)) := by
      apply List.map_congr_left
      intro n _
      rw [List.count_cons]
      by_cases h : a = n
      · subst h; simp; ring
      · simp [h, Ne.symm h]
    rw [h1, List.sum_map_add, ih (fun l hl => hs l (List.mem_cons_of_mem _ hl)), sum_indicator wf F (hs a (List.mem_cons_self ..)),
      List.map_cons, List.sum_cons, add_comm]

omit wf in
theorem way_ends {u v : TNode} {es : List Nat} {ls : List TNode} (h : Way net u es ls v) :
    u ∈ net.nodes ∧ v ∈ net.nodes ∧ (∀ l ∈ ls, l ∈ net.nodes ∧ l.kind = .link) ∧ ∀ e ∈ es, e < net.edges.length := by
  induction h with
  | last u v e hl =>
    exact ⟨List.mem_of_getElem? hl.1, List.mem_of_getElem? hl.2.1, by simp, by
      simpa using (List.getElem?_eq_some_iff.1 hl.2.2).1⟩
  | cons u w v e es ls hl hk hw ih =>
    refine ⟨List.mem_of_getElem? hl.1, ih.2.1, ?_, ?_⟩
    · intro l hm
      rcases List.mem_cons.1 hm with rfl | hm
      · exact ⟨ih.1, hk⟩
      · exact ih.2.2.1 l hm
    · intro e' hm
      rcases List.mem_cons.1 hm with rfl | hm
      · exact (List.getElem?_eq_some_iff.1 hl.2.2).1
      · exact ih.2.2.2 e' hm

/-- What a unit along a way adds to the flow of a node. -/
theorem nodeFlow_way {u v : TNode} {es : List Nat} {ls : List TNode} (h : Way net u es ls v) {n : TNode} (hn : n ∈ net.nodes) :
    nodeFlow (along es) n = (match n.kind with
      | .input => if n = u then 1 else 0
      | .link => (if n = u then 1 else 0) + (ls.count n : ℚ)
      | .output => if n = v then 1 else 0
      | .storage => (if n = v then 1 else 0) - (if n = u then 1 else 0)) := by
  have hl := (way_ends h).2.2.1
  have h0 : n.kind ≠ .link → ls.count n = 0 := by
    intro hk
    rw [List.count_eq_zero]
    exact fun hm => hk (hl n hm).2
  unfold nodeFlow
  rw [way_out wf h hn, way_in wf h hn]
  cases hk : n.kind with
  | link => rfl
  | _ =>
    simp only [h0 (by rw [hk]; simp)]
    simp

/-- Cost of a unit leaving a node. -/
def leaveCost (cost : TNode → ℚ) (n : TNode) : ℚ :=
  match n.kind with
  | .input => cost n
  | .link => cost n
  | .output => 0
  | .storage => -cost n

/-- Cost of a unit entering a node. -/
def enterCost (cost : TNode → ℚ) (n : TNode) : ℚ :=
  match n.kind with
  | .input => 0
  | .link => 0
  | .output => cost n
  | .storage => cost n

theorem cost_way {M : Model} (hM : M.net = net) (cost : TNode → ℚ) {u v : TNode} {es : List Nat} {ls : List TNode}
    (h : Way net u es ls v) : totalCost M cost (along es) = leaveCost cost u + (ls.map cost).sum + enterCost cost v := by
  obtain ⟨hu, hv, hl, _⟩ := way_ends h
  have h0 : ∀ n, n.kind ≠ .link → ls.count n = 0 := by
    intro n hk
    rw [List.count_eq_zero]
    exact fun hm => hk (hl n hm).2
  have h1 : net.nodes.map (fun n => cost n * nodeFlow (along es) n) = net.nodes.map (fun n =>
      (leaveCost cost n * (if n = u then 1 else 0) + cost n * (ls.count n : ℚ)) + enterCost cost n * (if n = v then 1 else 0)) := by
    apply List.map_congr_left
    intro n hn
    rw [nodeFlow_way wf h hn]
    unfold leaveCost enterCost
    cases hk : n.kind with
    | link => simp only; ring
    | input => simp only [h0 n (by rw [hk]; simp)]; ring
    | output => simp only [h0 n (by rw [hk]; simp)]; ring
    | storage => simp only [h0 n (by rw [hk]; simp)]; ring
  unfold totalCost
  rw [hM, h1, List.sum_map_add, List.sum_map_add, sum_indicator wf _ hu, sum_indicator wf _ hv,
    sum_counts wf cost (fun l h => (hl l h).1)]

/-- A unit along a way between two nodes that are not links, or which cancels at links, is balanced. -/
theorem balanced_way {u v : TNode} {es : List Nat} {ls : List TNode} (h : Way net u es ls v) (hu : u.kind ≠ .link)
    (hv : v.kind ≠ .link) : Balanced net (along es) := by
  intro n hn hk
  rw [way_in wf h hn, way_out wf h hn, if_neg (by rintro rfl; exact hv hk), if_neg (by rintro rfl; exact hu hk)]

theorem balanced_instead {u v : TNode} {es es' : List Nat} {ls ls' : List TNode} (h : Way net u es ls v) (h' : Way net u es' ls' v) :
    Balanced net (instead es es') := by
  have e : instead es es' = shift (along es) (along es') (-1) := by funext e; simp [instead, shift]; ring
  intro n hn hk
  rw [e, sum_shift, sum_shift, way_in wf h hn, way_out wf h hn, way_in wf h' hn, way_out wf h' hn]
  ring

end ways

/-! ## Groups -/

/-- Pairs of a step concern the nodes of the aggregated node. -/
theorem pairs_nodes (f : Factors) (nodes : List (List Nat)) (σ : Nat → Option ℚ) (ps : List Pair) (h : f.pairs nodes σ = .ok ps) :
    ∀ p ∈ ps, p.nodes0 ∈ nodes ∧ p.nodes1 ∈ nodes := by
  cases f with
  | proportion fs =>
    simp only [Factors.pairs, proportional] at h
    cases nodes with
    | nil => simp at h
    | cons n0 rest =>
      simp only at h
      split_ifs at h
      cases hv : currentValues σ fs with
      | error e => simp [hv] at h
      | ok vs =>
        simp only [hv] at h
        split_ifs at h
        simp only [Except.ok.injEq] at h
        subst h
        intro p hp
        obtain ⟨q, hq, rfl⟩ := List.mem_map.1 hp
        exact ⟨by simp, List.mem_cons_of_mem _ (List.of_mem_zip hq).1⟩
  | ratio fs =>
    simp only [Factors.pairs, Solver.ratio] at h
    split_ifs at h
    have key : ∀ (n0 : List Nat) (f0 : ℚ) (xs : List (List Nat × Metric)) (ps : List Pair),
        ratioLoop σ n0 f0 xs = .ok ps → ∀ p ∈ ps, p.nodes0 = n0 ∧ p.nodes1 ∈ xs.map (·.1) := by
      intro n0 f0 xs
      induction xs with
      | nil => intro ps h; simp only [ratioLoop, Except.ok.injEq] at h; subst h; simp
      | cons x xs ih =>
        obtain ⟨n1, f1⟩ := x
        intro ps h
        simp only [ratioLoop] at h
        cases hc : f1.get σ with
        | none => simp [hc] at h
        | some v =>
          simp only [hc] at h
          cases hr : ratioLoop σ n0 f0 xs with
          | error e => simp [hr] at h
          | ok ws =>
            simp only [hr, Except.ok.injEq] at h
            subst h
            rw [List.forall_mem_cons]
            exact ⟨⟨rfl, by simp⟩, fun p hp => ⟨(ih ws hr p hp).1, List.mem_cons_of_mem _ (ih ws hr p hp).2⟩⟩
    cases nodes with
    | nil => simp at h
    | cons n0 ns =>
      cases fs with
      | nil => simp at h
      | cons f0 fs =>
        simp only at h
        cases hc : f0.get σ with
        | none => simp [hc] at h
        | some v =>
          simp only [hc] at h
          split_ifs at h
          intro p hp
          obtain ⟨h1, h2⟩ := key n0 v _ ps h p hp
          obtain ⟨q, hq, he⟩ := List.mem_map.1 h2
          exact ⟨by simp [h1], List.mem_cons_of_mem _ (he ▸ (List.of_mem_zip hq).1)⟩
  | coefficients fs rhs =>
    simp only [Factors.pairs, Solver.coefficients] at h
    split_ifs at h
    split at h
    · split at h
      · simp at h
      · split at h
        · simp at h
        · split at h
          · simp only [Except.ok.injEq] at h; subst h; simp
          · split at h
            · simp at h
            · simp only [Except.ok.injEq] at h; subst h; simp
    · simp at h

/-- Groups that do not see a change have room for it. -/
theorem groups_blind (ha : ∀ a ∈ M.aggs, ∀ s ∈ a.nodes, setFlow (flowAt M.net g) s = 0) (hv : ∀ v ∈ M.vs, vsUse M.net g v = 0) :
    GroupsHaveRoom M st f g := by
  have h0 : ∀ a ∈ M.aggs, aggFlow M.net g a = 0 := by
    intro a hm
    unfold aggFlow
    have : a.nodes.map (setFlow (flowAt M.net g)) = a.nodes.map (fun _ => (0 : ℚ)) :=
      List.map_congr_left (fun s hs => ha a hm s hs)
    simp [this]
  refine ⟨fun a hm h => ?_, fun a hm h => ?_, fun a hm F ps hF hps p hp x y _ _ => ?_, fun k v hk _ h => ?_, fun k v hk _ h => ?_⟩
  · rw [h0 a hm] at h; exact absurd h (lt_irrefl _)
  · rw [h0 a hm] at h; exact absurd h (lt_irrefl _)
  · obtain ⟨h1, h2⟩ := pairs_nodes F a.nodes _ ps hps p hp
    rw [ha a hm _ h1, ha a hm _ h2]; ring
  · rw [hv v (List.mem_of_getElem? hk)] at h; exact absurd h (lt_irrefl _)
  · rw [hv v (List.mem_of_getElem? hk)] at h; exact absurd h (lt_irrefl _)

theorem groups_apart (wf : WF M.net) {ns : List TNode} (h : Apart M ns) (hg : ∀ n ∈ M.net.nodes, n ∉ ns → nodeFlow g n = 0) :
    GroupsHaveRoom M st f g := by
  have h0 : ∀ i, (∀ n ∈ ns, i ≠ n.index) → flowAt M.net g i = 0 := by
    intro i hi
    unfold flowAt
    cases hn : M.net.nodes[i]? with
    | none => rfl
    | some n =>
      have := wf.nodeIndex i n hn
      simp only [Option.map_some, Option.getD_some]
      exact hg n (List.mem_of_getElem? hn) (fun hm => hi n hm this.symm)
  refine groups_blind (fun a hm s hs => ?_) (fun v hm => ?_)
  · unfold setFlow
    have : s.map (flowAt M.net g) = s.map (fun _ => (0 : ℚ)) := List.map_congr_left (fun i hi =>
      h0 i (fun n hn he => h.1 a hm s hs n hn (he ▸ hi)))
    simp [this]
  · unfold vsUse
    have : v.members.map (fun p => p.2 * flowAt M.net g p.1) = v.members.map (fun _ => (0 : ℚ)) :=
      List.map_congr_left (fun p hp => by rw [h0 p.1 (fun n hn => h.2 v hm p hp n hn), mul_zero])
    simp [this]

theorem setFlow_moved {a b : TNode}
    (hg : ∀ i, flowAt M.net g i = (if i = a.index then 1 else 0) - (if i = b.index then 1 else 0)) (l : List Nat) :
    setFlow (flowAt M.net g) l = (l.count a.index : ℚ) - (l.count b.index : ℚ) := by
  unfold setFlow
  induction l with
  | nil => simp
  | cons i l ih =>
    simp only [List.map_cons, List.sum_cons, ih, hg, List.count_cons]
    push_cast
    by_cases h1 : i = a.index <;> by_cases h2 : i = b.index <;> simp [h1, h2] <;> ring

theorem groups_alike {a b : TNode} (h : AlikeOrRoom M st f a b)
    (hg : ∀ i, flowAt M.net g i = (if i = a.index then 1 else 0) - (if i = b.index then 1 else 0)) :
    GroupsHaveRoom M st f g := by
  have key := setFlow_moved hg
  have hv : ∀ v ∈ M.vs, vsUse M.net g v = 0 := by
    intro v hm
    have key : ∀ l : List (Nat × ℚ), (l.map (fun p => p.2 * flowAt M.net g p.1)).sum =
        ((l.filter (fun p => p.1 = a.index)).map (·.2)).sum - ((l.filter (fun p => p.1 = b.index)).map (·.2)).sum := by
      intro l
      induction l with
      | nil => simp
      | cons p l ih =>
        rw [List.map_cons, List.sum_cons, ih, hg, List.filter_cons, List.filter_cons]
        by_cases h1 : p.1 = a.index <;> by_cases h2 : p.1 = b.index
        · rw [if_pos h1, if_pos h2, if_pos (by simpa using h1), if_pos (by simpa using h2)]
          simp only [List.map_cons, List.sum_cons]; ring
        · rw [if_pos h1, if_neg h2, if_pos (by simpa using h1), if_neg (by simpa using h2)]
          simp only [List.map_cons, List.sum_cons]; ring
        · rw [if_neg h1, if_pos h2, if_neg (by simpa using h1), if_pos (by simpa using h2)]
          simp only [List.map_cons, List.sum_cons]; ring
        · rw [if_neg h1, if_neg h2, if_neg (by simpa using h1), if_neg (by simpa using h2)]
          ring
    unfold vsUse
    rw [key, h.2 v hm, sub_self]
  have h0 : ∀ x ∈ M.aggs, (∀ s ∈ x.nodes, s.count a.index = s.count b.index) → aggFlow M.net g x = 0 := by
    intro x _ hx
    unfold aggFlow
    have : x.nodes.map (setFlow (flowAt M.net g)) = x.nodes.map (fun _ => (0 : ℚ)) :=
      List.map_congr_left (fun s hs => by rw [key, hx s hs, sub_self])
    simp [this]
  have h1 : ∀ x ∈ M.aggs, (∀ s ∈ x.nodes, s.count b.index ≤ s.count a.index) → 0 ≤ aggFlow M.net g x := by
    intro x _ hx
    unfold aggFlow
    refine List.sum_nonneg (fun q hq => ?_)
    obtain ⟨s, hs, rfl⟩ := List.mem_map.1 hq
    rw [key, sub_nonneg]
    exact_mod_cast hx s hs
  have h2 : ∀ x ∈ M.aggs, (∀ s ∈ x.nodes, s.count a.index ≤ s.count b.index) → aggFlow M.net g x ≤ 0 := by
    intro x _ hx
    unfold aggFlow
    generalize x.nodes = ss at hx
    induction ss with
    | nil => simp
    | cons s ss ih =>
      rw [List.map_cons, List.sum_cons, key]
      have h3 : (s.count a.index : ℚ) ≤ s.count b.index := by exact_mod_cast hx s List.mem_cons_self
      have h4 := ih (fun t ht => hx t (List.mem_cons_of_mem _ ht))
      linarith
  refine ⟨fun x hm hlt => ?_, fun x hm hlt => ?_, fun x hm F ps hF hps p hp c d _ _ => ?_, fun k v hk _ h => ?_, fun k v hk _ h => ?_⟩
  · rcases h.1 x hm with hx | ⟨_, hx, _⟩ | ⟨_, _, hx⟩
    · rw [h0 x hm hx] at hlt; exact absurd hlt (lt_irrefl _)
    · exact absurd hlt (not_lt.2 (h1 x hm hx))
    · exact hx
  · rcases h.1 x hm with hx | ⟨_, _, hx⟩ | ⟨_, hx, _⟩
    · rw [h0 x hm hx] at hlt; exact absurd hlt (lt_irrefl _)
    · exact hx
    · exact absurd hlt (not_lt.2 (h2 x hm hx))
  · rcases h.1 x hm with hx | ⟨hx, _⟩ | ⟨hx, _⟩
    · obtain ⟨h3, h4⟩ := pairs_nodes F x.nodes _ ps hps p hp
      rw [key, key, hx _ h3, hx _ h4]; ring
    · rw [hx] at hF; cases hF
    · rw [hx] at hF; cases hF
  · rw [hv v (List.mem_of_getElem? hk)] at h; exact absurd h (lt_irrefl _)
  · rw [hv v (List.mem_of_getElem? hk)] at h; exact absurd h (lt_irrefl _)

/-! ## Limits that are reached -/

theorem full_or {n : TNode} (ha : Allowed M st f) (hm : n ∈ M.net.nodes) (hk : n.kind ≠ .storage) :
    Full M st f n ∨ Under st.metric (M.data n.index).maxFlow f64MAX (nodeFlow f n) := by
  have := ha.nodes n hm
  unfold NodeOk at this
  rw [if_neg hk] at this
  obtain ⟨u, hu, h⟩ := atMost_value.1 this.2
  rcases h.eq_or_lt with h | h
  · left; unfold Full; rw [h]; exact hu
  · exact Or.inr ⟨u, hu, h⟩

theorem least_or {n : TNode} (ha : Allowed M st f) (hm : n ∈ M.net.nodes) (hk : n.kind ≠ .storage) :
    Least M st f n ∨ Over st.metric (M.data n.index).minFlow 0 (nodeFlow f n) := by
  have := ha.nodes n hm
  unfold NodeOk at this
  rw [if_neg hk] at this
  obtain ⟨u, hu, h⟩ := atLeast_value.1 this.1
  rcases h.eq_or_lt with h | h
  · left; unfold Least; rw [← h]; exact hu
  · exact Or.inr ⟨u, hu, h⟩

theorem brimful_or {n : TNode} (ha : Allowed M st f) (hm : n ∈ M.net.nodes) (hk : n.kind = .storage) :
    Brimful M st f n ∨ ∀ v, st.volume n.index = some v → Under st.metric (M.data n.index).maxVolume f64MAX (v + st.days * nodeFlow f n) := by
  have := ha.nodes n hm
  unfold NodeOk at this
  rw [if_pos hk] at this
  obtain ⟨v, hv, _, h⟩ := this
  obtain ⟨u, hu, h⟩ := atMost_value.1 h
  rcases h.eq_or_lt with h | h
  · exact Or.inl ⟨v, hv, h ▸ hu⟩
  · right; intro v' hv'; rw [hv] at hv'; cases hv'; exact ⟨u, hu, h⟩

theorem drained_or {n : TNode} (ha : Allowed M st f) (hm : n ∈ M.net.nodes) (hk : n.kind = .storage) :
    Drained M st f n ∨ ∀ v, st.volume n.index = some v → Over st.metric (M.data n.index).minVolume 0 (v + st.days * nodeFlow f n) := by
  have := ha.nodes n hm
  unfold NodeOk at this
  rw [if_pos hk] at this
  obtain ⟨v, hv, h, _⟩ := this
  obtain ⟨u, hu, h⟩ := atLeast_value.1 h
  rcases h.eq_or_lt with h | h
  · exact Or.inl ⟨v, hv, h ▸ hu⟩
  · right; intro v' hv'; rw [hv] at hv'; cases hv'; exact ⟨u, hu, h⟩

end Verif.Solver
