import Verif.Props.Schema
import Verif.Spec.SchemaPieces

/-!
# C71: piecewise storages

The stores of a piecewise storage divide its volume at the control curves. Its least volume and its initial volume fill them from the
lowest one.
-/

namespace Verif.Schema

open Verif.Topology (Name EdgeDecl)
open Verif.Solver (Metric AtLeast AtMost f64MAX)

/-! ## Pouring -/

theorem pour_sum (v : ℚ) (ss : List ℚ) (hv : 0 ≤ v) (hs : ∀ s ∈ ss, 0 ≤ s) : (pour v ss).sum = min v ss.sum := by
  induction ss generalizing v with
  | nil => simp [pour, hv]
  | cons s ss ih =>
    have h0 : 0 ≤ s := hs s (by simp)
    have h1 := ih (v - min v s) (by simp) (fun x hx => hs x (by simp [hx]))
    have h2 : 0 ≤ ss.sum := List.sum_nonneg (fun x hx => hs x (by simp [hx]))
    simp only [pour, List.sum_cons, h1]
    rcases le_total v s with h | h
    · rw [min_eq_left h, sub_self, min_eq_left h2, min_eq_left (by linarith)]; ring
    · rw [min_eq_right h]
      rcases le_total (v - s) ss.sum with h' | h'
      · rw [min_eq_left h', min_eq_left (by linarith)]; ring
      · rw [min_eq_right h', min_eq_right (by linarith)]

theorem pour_zero (ss : List ℚ) (hs : ∀ s ∈ ss, 0 ≤ s) : pour 0 ss = ss.map (fun _ => 0) := by
  induction ss with
  | nil => rfl
  | cons s ss ih =>
    simp only [pour, List.map_cons, min_eq_left (hs s (by simp)), sub_zero]
    rw [ih (fun x hx => hs x (by simp [hx]))]

/-- Sizes with what lies below each. -/
def above (pre : ℚ) : List ℚ → List (ℚ × ℚ)
  | [] => []
  | s :: ss => (s, pre) :: above (pre + s) ss

theorem pour_above (v pre : ℚ) (ss : List ℚ) (hs : ∀ s ∈ ss, 0 ≤ s) :
    pour (max (v - pre) 0) ss = (above pre ss).map (fun x => min (max (v - x.2) 0) x.1) := by
  induction ss generalizing pre with
  | nil => rfl
  | cons s ss ih =>
    have h0 : 0 ≤ s := hs s (by simp)
    simp only [pour, above, List.map_cons, List.cons.injEq, true_and]
    rw [← ih (pre + s) (fun x hx => hs x (by simp [hx]))]
    congr 1
    rcases le_total (v - pre) 0 with h | h
    · rw [max_eq_right h, max_eq_right (by linarith), min_eq_left h0, sub_zero]
    · rw [max_eq_left h]
      rcases le_total (v - pre) s with h' | h'
      · rw [min_eq_left h', max_eq_right (by linarith), sub_self]
      · rw [min_eq_right h', max_eq_left (by linarith)]; ring

theorem above_nonneg (pre : ℚ) (ss : List ℚ) (hs : ∀ s ∈ ss, 0 ≤ s) : ∀ x ∈ above pre ss, 0 ≤ x.1 := by
  induction ss generalizing pre with
  | nil => simp [above]
  | cons s ss ih =>
    intro x hx
    simp only [above] at hx
    rcases List.mem_cons.1 hx with rfl | hx
    · exact hs s (by simp)
    · exact ih _ (fun y hy => hs y (by simp [hy])) x hx

theorem clamped (v p s : ℚ) (hs : 0 ≤ s) : clampedDifference v p (some 0) (some s) = min (max (v - p) 0) s := by
  unfold clampedDifference
  simp only
  split
  · rename_i h
    rw [max_eq_right (le_of_lt h), min_eq_left hs]
  · rename_i h
    rw [max_eq_left (not_lt.1 h)]
    split
    · rename_i h'
      rw [min_eq_right (le_of_lt h')]
    · rename_i h'
      rw [min_eq_left (not_lt.1 h')]

/-! ## Cutting -/

/-- Sizes of the parts above a share. -/
def cutFrom (t lo : ℚ) (shares : List ℚ) : List ℚ := List.zipWith (fun lo hi => t * hi - t * lo) (lo :: shares) (shares ++ [1])

theorem cutFrom_cons (t lo c : ℚ) (cs : List ℚ) : cutFrom t lo (c :: cs) = (t * c - t * lo) :: cutFrom t c cs := rfl

theorem cutFrom_sum (t lo : ℚ) (cs : List ℚ) : (cutFrom t lo cs).sum = t - t * lo := by
  induction cs generalizing lo with
  | nil => simp [cutFrom]
  | cons c cs ih => rw [cutFrom_cons, List.sum_cons, ih]; ring

theorem cutFrom_nonneg (t lo : ℚ) (cs : List ℚ) (ht : 0 ≤ t) (hs : List.Pairwise (· ≤ ·) (lo :: cs ++ [1])) : ∀ s ∈ cutFrom t lo cs, 0 ≤ s := by
  induction cs generalizing lo with
  | nil =>
    intro s hs'
    simp only [cutFrom, List.nil_append, List.zipWith_cons_cons, List.zipWith_nil_left, List.mem_singleton] at hs'
    simp only [List.cons_append, List.nil_append, List.pairwise_cons, List.mem_singleton, forall_eq] at hs
    rw [hs', ← mul_sub]
    exact mul_nonneg ht (by linarith [hs.1])
  | cons c cs ih =>
    rw [cutFrom_cons]
    rw [List.cons_append, List.pairwise_cons] at hs
    intro s hs'
    rcases List.mem_cons.1 hs' with rfl | hs'
    · have := hs.1 c (by simp)
      rw [← mul_sub]
      exact mul_nonneg ht (by linarith)
    · exact ih c hs.2 s hs'

/-! ## The loop -/

/-- What is known of a store: its size and the sizes below. -/
structure Store (σ : Nat → Option ℚ) (b : PieceStoreN) (d : Decl) (x : ℚ × ℚ) : Prop where
  size : d.MaxIs σ x.1
  prior : ∃ m, m.get σ = some x.2 ∧ d.initial = some (pieceInitial b m)
  least : ∀ m v, b.minVolume = some m → m.get σ = some v → d.MinIs σ (clampedDifference v x.2 (some 0) (some x.1))

theorem mapM_values (σ : Nat → Option ℚ) (ms : List Metric) (vs : List ℚ) (h : ms.map (Metric.get σ) = vs.map some) :
    ms.mapM (Metric.get σ) = some vs := by
  induction ms generalizing vs with
  | nil => cases vs with
    | nil => rfl
    | cons v vs => simp at h
  | cons m ms ih =>
    cases vs with
    | nil => simp at h
    | cons v vs =>
      simp only [List.map_cons, List.cons.injEq] at h
      simp [List.mapM_cons, h.1, ih vs h.2]

theorem piece_store {P : ParamNo} {σ : Nat → Option ℚ} {x : String} {b : PieceStoreN} {i : Nat} {upper lower cost : Option Metric}
    {prior : List Metric} {t l u : ℚ} {lo up : Option ℚ} {ps : List ℚ}
    (hp : ∀ q ∈ (pieceFrag P x b i upper lower cost prior).params, ∀ v, q.2.2.value σ = some v → σ (P q.1 q.2.1 none) = v)
    (ht : b.maxVolume.get σ = some t) (hlo : optional σ lower = some lo) (hup : optional σ upper = some up) (hl : lo.getD 0 = l)
    (hu : up.getD 1 = u) (hps : prior.map (Metric.get σ) = ps.map some) :
    List.Forall₂ (Store σ b) (pieceFrag P x b i upper lower cost prior).nodes [(t * u - t * l, ps.sum)] := by
  have hmax : (pieceMax P x i).get σ = some (t * u - t * l) := by
    have := hp (x, "store-" ++ pad2 i ++ "-max-volume", .volumeBetween b.maxVolume upper lower) (by simp [pieceFrag]) _ rfl
    simp only [ht, hlo, hup, Option.bind_eq_bind, Option.bind_some, pure] at this
    unfold pieceMax
    simp only [Metric.get]
    rw [this, ← hl, ← hu]
    unfold Curves.volumeBetween
    rw [mul_sub]
  have hprior : (piecePrior P x i).get σ = some ps.sum := by
    have := hp (x, "store-" ++ pad2 i ++ "-prior-max-volume", .sum prior) (by simp [pieceFrag]) _ rfl
    rw [mapM_values σ prior ps hps] at this
    exact this
  refine .cons ⟨⟨_, rfl, hmax⟩, ⟨_, hprior, rfl⟩, ?_⟩ .nil
  intro m v hm hv
  refine ⟨pieceMin P x i, by simp [volumeData, hm], ?_⟩
  have := hp (x, "store-" ++ pad2 i ++ "-min-volume", .difference m (piecePrior P x i) (some (.const 0)) (some (pieceMax P x i)))
    (by simp [pieceFrag, hm]) _ rfl
  simp only [hv, hprior, optional, hmax, Option.bind_eq_bind, Option.bind_some, pure, Option.map_some] at this
  exact this

theorem loop_stores {P : ParamNo} {σ : Nat → Option ℚ} {x : String} {b : PieceStoreN} {t : ℚ} (ht : b.maxVolume.get σ = some t)
    (ss : List Piece) (i : Nat) (lower : Option Metric) (prior : List Metric) {l : ℚ} {lo : Option ℚ} {ps cs : List ℚ}
    (hp : ∀ q ∈ (pieceLoop P x b ss i lower prior).params, ∀ v, q.2.2.value σ = some v → σ (P q.1 q.2.1 none) = v)
    (hlo : optional σ lower = some lo) (hl : lo.getD 0 = l) (hps : prior.map (Metric.get σ) = ps.map some)
    (hcs : ss.map (fun s => s.curve.get σ) = cs.map some) :
    List.Forall₂ (Store σ b) (pieceLoop P x b ss i lower prior).nodes (above ps.sum (cutFrom t l cs)) := by
  induction ss generalizing i lower prior l lo ps cs with
  | nil =>
    have : cs = [] := by simpa using hcs.symm
    subst this
    have := piece_store (upper := none) (up := none) hp ht hlo rfl hl rfl hps
    simpa [pieceLoop, cutFrom, above] using this
  | cons s ss ih =>
    cases cs with
    | nil => simp at hcs
    | cons c cs =>
      simp only [List.map_cons, List.cons.injEq] at hcs
      have hup : optional σ (some s.curve) = some (some c) := by simp [optional, hcs.1]
      have h1 := piece_store (P := P) (x := x) (i := i) (cost := s.cost) (upper := some s.curve) (lower := lower)
        (fun q hq => hp q (by simp only [pieceLoop, Frag.add, List.mem_append]; exact Or.inl hq)) ht hlo hup hl rfl hps
      have hmax : (pieceMax P x i).get σ = some (t * c - t * l) := by
        cases h1 with
        | cons hs _ =>
          obtain ⟨m, hm, hv⟩ := hs.size
          simp only [volumeData, Option.some.injEq] at hm
          rw [hm]; exact hv
      have h2 := ih (i + 1) (some s.curve) (prior ++ [pieceMax P x i]) (l := c) (lo := some c) (ps := ps ++ [t * c - t * l])
        (cs := cs) (fun q hq => hp q (by simp only [pieceLoop, Frag.add, List.mem_append]; exact Or.inr hq)) hup rfl
        (by simp [hps, hmax]) hcs.2
      rw [cutFrom_cons]
      simp only [above]
      rw [List.sum_append, List.sum_singleton] at h2
      cases h1 with
      | cons hs hn =>
        cases hn
        exact .cons hs h2

/-! ## The claims -/

theorem coreNodes_eq {P : ParamNo} {N : Net} {F : Frag} {C : Core} (h : Built P N F C) {n : SNode} (hm : n ∈ N.nodes) {G : Frag}
    (hG : n.frag P = .ok G) : coreNodes F n.name = G.nodes := by
  obtain ⟨Gs, Vs, Es, hparts⟩ := compile_parts h.compiled
  have hnd := (C64_validate_iff N).1 hparts.valid
  have hnd := (List.nodup_append.1 hnd).1
  unfold coreNodes
  rw [hparts.nodes']
  have hf := hparts.frags
  generalize N.nodes = ns at hf hm hnd
  clear hparts
  induction hf with
  | nil => cases hm
  | @cons n' G' ns Gs hn' hrest ih =>
    rw [List.map_cons, List.nodup_cons] at hnd
    rw [List.flatMap_cons, List.filter_append]
    have hown := (owned P _ _ hn').nodes
    rcases List.mem_cons.1 hm with rfl | hm
    · rw [hG, Except.ok.injEq] at hn'
      subst hn'
      rw [List.filter_eq_self.2 (fun d hd => by simpa using hown d hd)]
      have : (Gs.flatMap (·.nodes)).filter (fun d => decide (d.name.1 = n.name)) = [] := by
        rw [List.filter_eq_nil_iff]
        intro d hd
        obtain ⟨G', hG', hdG⟩ := List.mem_flatMap.1 hd
        have hmem : ∃ m ∈ ns, m.frag P = .ok G' := by
          clear ih hnd hm
          induction hrest with
          | nil => cases hG'
          | cons hr _ ih =>
            rcases List.mem_cons.1 hG' with rfl | hG'
            · exact ⟨_, List.mem_cons_self, hr⟩
            · obtain ⟨m, hm, hr⟩ := ih (List.mem_flatMap.2 ⟨G', hG', hdG⟩) hG'
              exact ⟨m, List.mem_cons_of_mem _ hm, hr⟩
        obtain ⟨m, hm', hmG⟩ := hmem
        have := (owned P _ _ hmG).nodes d hdG
        simp only [decide_eq_true_eq]
        intro hc
        exact hnd.1 (List.mem_map.2 ⟨m, hm', by rw [← this, hc]⟩)
      rw [this, List.append_nil]
    · have : G'.nodes.filter (fun d => decide (d.name.1 = n.name)) = [] := by
        rw [List.filter_eq_nil_iff]
        intro d hd
        simp only [decide_eq_true_eq]
        intro hc
        exact hnd.1 (List.mem_map.2 ⟨n, hm, by rw [← hown d hd, hc]⟩)
      rw [this, List.nil_append]
      exact ih hm hnd.2

section
variable {P : ParamNo} {N : Net} {F : Frag} {C : Core} (h : Built P N F C) {σ : Nat → Option ℚ} (hc : Computed P F σ)
  {n : SNode} (hm : n ∈ N.nodes) {b : PieceStoreN} (hb : n.body = .pieceStore b) {t : ℚ} (ht : b.maxVolume.get σ = some t)
  {cs : List ℚ} (hcs : b.steps.map (fun s => s.curve.get σ) = cs.map some)
include h hc hm hb ht hcs

theorem stores : List.Forall₂ (Store σ b) (coreNodes F n.name) (above 0 (cut t cs)) := by
  obtain ⟨G, hG⟩ := frag_of_mem h.compiled hm
  rw [coreNodes_eq h hm hG]
  have hp : ∀ q ∈ G.params, ∀ v, q.2.2.value σ = some v → σ (P q.1 q.2.1 none) = v := fun q hq => hc q (mem_params h hm hG hq)
  unfold SNode.frag at hG
  simp only [hb, Except.ok.injEq, PieceStoreN.frag] at hG
  subst hG
  have := loop_stores (P := P) (x := n.name) ht b.steps 0 none [] (l := 0) (lo := none) (ps := []) (cs := cs)
    (fun q hq => hp q (by simp only [Frag.add, List.mem_append]; exact Or.inl hq)) rfl rfl rfl hcs
  simp only [Frag.add, List.append_nil]
  exact this

/-- **C71 (sizes).** The stores of a piecewise storage have the sizes cut out of its largest volume by the control curves, and together hold
exactly the largest volume. -/
theorem C71_sizes : List.Forall₂ (Decl.MaxIs σ) (coreNodes F n.name) (cut t cs) ∧ (cut t cs).sum = t := by
  refine ⟨?_, ?_⟩
  · have := stores h hc hm hb ht hcs
    generalize coreNodes F n.name = ds at this
    generalize cut t cs = ss at this
    generalize (0 : ℚ) = pre at this
    clear h hc hm hb ht hcs
    induction ss generalizing ds pre with
    | nil => cases this; exact .nil
    | cons s ss ih =>
      cases this with
      | cons hs hr => exact .cons hs.size (ih _ _ hr)
  · have := cutFrom_sum t 0 cs
    unfold cutFrom at this
    unfold cut
    rw [this]; ring

variable (ht0 : 0 ≤ t) (hs : List.Pairwise (· ≤ ·) (0 :: cs ++ [1]))
include ht0 hs

omit h hc hm hb ht hcs in
theorem cut_nonneg : ∀ s ∈ cut t cs, 0 ≤ s := cutFrom_nonneg t 0 cs ht0 hs

/-- **C71 (least volume).** The least volumes of the stores are those of the least volume of the piecewise storage poured in from below; together
they are exactly the least volume if it fits. -/
theorem C71_least {m : Metric} (hmin : b.minVolume = some m) {v : ℚ} (hv : m.get σ = some v) (hv0 : 0 ≤ v) :
    List.Forall₂ (Decl.MinIs σ) (coreNodes F n.name) (pour v (cut t cs)) ∧ (pour v (cut t cs)).sum = min v t := by
  have hnn := cut_nonneg ht0 hs
  refine ⟨?_, ?_⟩
  · have := stores h hc hm hb ht hcs
    have hp := pour_above v 0 (cut t cs) hnn
    rw [sub_zero, max_eq_left hv0] at hp
    rw [hp, List.forall₂_map_right_iff]
    have hx := above_nonneg 0 (cut t cs) hnn
    generalize coreNodes F n.name = ds at this
    generalize above 0 (cut t cs) = xs at this hx
    clear hp
    induction this with
    | nil => exact .nil
    | cons hd _ ih =>
      refine .cons ?_ (ih (fun x hx' => hx x (by simp [hx'])))
      have := hd.least m v hmin hv
      rwa [clamped _ _ _ (hx _ List.mem_cons_self)] at this
  · rw [pour_sum v _ hv0 hnn, (C71_sizes h hc hm hb ht hcs).2]

/-- **C71 (initial volume).** The initial volumes of the stores are those of the initial volume of the piecewise storage — a volume or a share of
its largest volume — poured in from below; together they are exactly the initial volume if it fits. -/
theorem C71_initial {v : ℚ} (hv : (∃ p, b.initial = .proportional p ∧ v = t * p) ∨ b.initial = .absolute v) (hv0 : 0 ≤ v) :
    List.Forall₂ (fun d s => d.startVolume σ = some s) (coreNodes F n.name) (pour v (cut t cs)) ∧ (pour v (cut t cs)).sum = min v t := by
  have hnn := cut_nonneg ht0 hs
  refine ⟨?_, ?_⟩
  · have := stores h hc hm hb ht hcs
    have hp := pour_above v 0 (cut t cs) hnn
    rw [sub_zero, max_eq_left hv0] at hp
    rw [hp, List.forall₂_map_right_iff]
    generalize coreNodes F n.name = ds at this
    generalize above 0 (cut t cs) = xs at this
    clear hp
    induction this with
    | nil => exact .nil
    | cons hd _ ih =>
      refine .cons ?_ ih
      obtain ⟨mx, hmx, hmv⟩ := hd.size
      obtain ⟨pr, hpr, hin⟩ := hd.prior
      unfold Decl.startVolume
      rcases hv with ⟨p, hp, rfl⟩ | hv
      · simp [hmx, hmv, hin, pieceInitial, hp, Initial.read, hpr, ht, State.InitialVolume.get]
      · simp [hmx, hmv, hin, pieceInitial, hv, Initial.read, hpr, State.InitialVolume.get]
  · rw [pour_sum v _ hv0 hnn, (C71_sizes h hc hm hb ht hcs).2]

end

/-! ## Volumes in a step -/

theorem pieceLoop_all (P : ParamNo) (x : String) (b : PieceStoreN) (ss : List Piece) (i : Nat) (l : Option Metric) (pr : List Metric) :
    List.Forall₂ (fun j d => d.name = storeName x j ∧ d.kind = .storage ∧ d.data.maxVolume = some (pieceMax P x j) ∧
      d.data.minVolume = b.minVolume.map (fun _ => pieceMin P x j)) (List.range' i (ss.length + 1)) (pieceLoop P x b ss i l pr).nodes := by
  induction ss generalizing i l pr with
  | nil => exact .cons ⟨rfl, rfl, rfl, rfl⟩ .nil
  | cons s ss ih => exact .cons ⟨rfl, rfl, rfl, rfl⟩ (ih (i + 1) _ _)

theorem forall₂_mem' {α β : Type} {R : α → β → Prop} {l : List α} {l' : List β} (h : List.Forall₂ R l l') {b : β} (hb : b ∈ l') :
    ∃ a ∈ l, R a b := by
  induction h with
  | nil => cases hb
  | cons hr _ ih =>
    rcases List.mem_cons.1 hb with rfl | hb
    · exact ⟨_, List.mem_cons_self, hr⟩
    · obtain ⟨a, ha, hR⟩ := ih hb
      exact ⟨a, List.mem_cons_of_mem _ ha, hR⟩

theorem sum_le_of_forall₂ {α : Type} {l : List α} {vs ws : List ℚ} {A B : α → ℚ → Prop} (h1 : List.Forall₂ A l vs) (h2 : List.Forall₂ B l ws)
    (h : ∀ a v w, a ∈ l → A a v → B a w → v ≤ w) : vs.sum ≤ ws.sum := by
  induction h1 generalizing ws with
  | nil => cases h2; rfl
  | cons ha _ ih =>
    cases h2 with
    | cons hb h2 =>
      rw [List.sum_cons, List.sum_cons]
      exact add_le_add (h _ _ _ List.mem_cons_self ha hb) (ih h2 (fun a v w hm => h a v w (List.mem_cons_of_mem _ hm)))

section
variable {P : ParamNo} {N : Net} {F : Frag} {C : Core} (h : Built P N F C) {st : Solver.StepState} {f : Nat → ℚ}
  (ha : Solver.Allowed C.model st f) {n : SNode} (hm : n ∈ N.nodes) {b : PieceStoreN} (hb : n.body = .pieceStore b)
include h hm hb

theorem core_names : (coreNodes F n.name).map (·.name) = (List.range (b.steps.length + 1)).map (storeName n.name) := by
  obtain ⟨G, hG⟩ := frag_of_mem h.compiled hm
  rw [coreNodes_eq h hm hG]
  unfold SNode.frag at hG
  simp only [hb, Except.ok.injEq, PieceStoreN.frag] at hG
  subst hG
  have := pieceLoop_all P n.name b b.steps 0 none []
  rw [List.range_eq_range']
  simp only [Frag.add, List.append_nil]
  generalize (pieceLoop P n.name b b.steps 0 none []).nodes = ds at this
  generalize List.range' 0 (b.steps.length + 1) = l at this
  induction this with
  | nil => rfl
  | cons hd _ ih => rw [List.map_cons, List.map_cons, ih, hd.1]

include ha

/-- **C71 (range).** In every allowed solution, the volume of a piecewise storage at the end of a step, over all its stores, lies between its
least volume, or 0, and its largest volume. -/
theorem C71_range (hc : Computed P F st.metric) {t : ℚ} (ht : b.maxVolume.get st.metric = some t) {cs : List ℚ}
    (hcs : b.steps.map (fun s => s.curve.get st.metric) = cs.map some) :
    ∃ vs : List ℚ, ((coreNodes F n.name).map (fun d => stored F st d.name)) = vs.map some ∧
      vs.sum + st.days * (received N F f n.name - sent N F f n.name) ≤ t ∧
      (b.minVolume = none → 0 ≤ vs.sum + st.days * (received N F f n.name - sent N F f n.name)) ∧
      (∀ m v, b.minVolume = some m → m.get st.metric = some v → 0 ≤ v → v ≤ t → List.Pairwise (· ≤ ·) (0 :: cs ++ [1]) →
        v ≤ vs.sum + st.days * (received N F f n.name - sent N F f n.name)) := by
  obtain ⟨vs, ws, hvs, hws, hsum⟩ := C65_pieces h ha hm hb
  have hnames := core_names h hm hb
  have hcore : List.Forall₂ (fun j d => d.name = storeName n.name j ∧ d.kind = .storage ∧ d.data.maxVolume = some (pieceMax P n.name j) ∧
      d.data.minVolume = b.minVolume.map (fun _ => pieceMin P n.name j)) (List.range (b.steps.length + 1)) (coreNodes F n.name) := by
    obtain ⟨G, hG⟩ := frag_of_mem h.compiled hm
    rw [coreNodes_eq h hm hG]
    unfold SNode.frag at hG
    simp only [hb, Except.ok.injEq, PieceStoreN.frag] at hG
    subst hG
    have := pieceLoop_all P n.name b b.steps 0 none []
    rw [← List.range_eq_range'] at this
    simpa only [Frag.add, List.append_nil] using this
  have hsizes := C71_sizes h hc hm hb ht hcs
  have compose : ∀ {Q : Decl → ℚ → Prop} {xs : List ℚ}, List.Forall₂ Q (coreNodes F n.name) xs →
      List.Forall₂ (fun j x => ∃ d, d.data.maxVolume = some (pieceMax P n.name j) ∧
        d.data.minVolume = b.minVolume.map (fun _ => pieceMin P n.name j) ∧ Q d x) (List.range (b.steps.length + 1)) xs := by
    intro Q xs hQ
    generalize List.range (b.steps.length + 1) = l at hcore
    generalize coreNodes F n.name = ds at hcore hQ
    clear hws hvs hsum hnames hsizes
    induction hcore generalizing xs with
    | nil => cases hQ; exact .nil
    | cons hd _ ih =>
      cases hQ with
      | cons hq hQ => exact .cons ⟨_, hd.2.2.1, hd.2.2.2, hq⟩ (ih hQ)
  refine ⟨vs, ?_, ?_, ?_, ?_⟩
  · rw [← hvs, ← hnames, List.map_map]; rfl
  · rw [← hsum]
    refine le_of_le_of_eq (sum_le_of_forall₂ hws (compose hsizes.1) ?_) hsizes.2
    rintro j w s _ ⟨_, _, hi, hhi, hle⟩ ⟨d, hd1, _, m, hm1, hm2⟩
    rw [hd1, Option.some.injEq] at hm1
    subst hm1
    rw [hhi, Option.some.injEq] at hm2
    rwa [← hm2]
  · intro hn
    rw [← hsum]
    apply List.sum_nonneg
    intro w hw
    obtain ⟨j, _, hj⟩ := forall₂_mem' hws hw
    exact hj.1 hn
  · intro m v hmin hv hv0 hvt hs
    have ht0 : 0 ≤ t := le_trans hv0 hvt
    obtain ⟨hl1, hl2⟩ := C71_least h hc hm hb ht hcs ht0 hs hmin hv hv0
    rw [← hsum]
    rw [min_eq_left hvt] at hl2
    refine le_of_eq_of_le hl2.symm (sum_le_of_forall₂ (compose hl1) hws ?_)
    rintro j s w _ ⟨d, _, hd2, m', hm1, hm2⟩ ⟨_, hlo, _⟩
    obtain ⟨lo, hlo, hle⟩ := hlo (by simp [hmin])
    rw [hd2, hmin, Option.map_some, Option.some.injEq] at hm1
    subst hm1
    rw [hlo, Option.some.injEq] at hm2
    rwa [← hm2]

end

end Verif.Schema
