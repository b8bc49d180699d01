import Verif.Lemmas.Insert

/-! # C110: a plain link put into an edge changes nothing -/

namespace Verif.Insert

open Verif.Solver Verif.Topology Verif.Reorder
open Verif.State (NodeKind)

variable {b b' : Builder} {u v g : Name} {es : List EdgeDecl} {M M' : Model} {st : StepState}
variable {big negBig : ℚ} {s s' s₁ s₁' : Built} {sets sets' : List (List Nat)}

/-- **C110 (building).** A network that can be built still can with the link, if its name is new. -/
theorem C110_builds (h : Inserted b b' u v g es) (hf : g ∉ b.nodes.map (·.name)) (hb : ∃ net, b.build = .ok net) :
    ∃ net, b'.build = .ok net := by
  rw [C49_build_iff] at hb ⊢
  have ho := off h hb hf
  have hen := h.edges.nodup_iff.1 hb.edges
  have hsub : ∀ {x : Name}, x ∈ b.nodes.map (·.name) → x ∈ b'.nodes.map (·.name) := by
    intro x hx; rw [h.nodes, List.map_append]; exact List.mem_append_left _ hx
  have hg : g ∈ b'.nodes.map (·.name) := by rw [h.nodes]; simp
  have huv := hb.ends _ (h.edges.mem_iff.2 List.mem_cons_self)
  have hes : ∀ e ∈ es, e ∈ b.edges := fun e he => h.edges.mem_iff.2 (List.mem_cons_of_mem _ he)
  constructor
  · rw [h.nodes, List.map_append, List.nodup_append]
    refine ⟨hb.nodes, by simp, fun x hx y hy e => ?_⟩
    simp at hy
    exact hf (hy ▸ e ▸ hx)
  · rw [h.edges'.nodup_iff, List.nodup_cons, List.nodup_cons]
    refine ⟨?_, fun hm => ho.src _ hm rfl, (List.nodup_cons.1 hen).2⟩
    intro hm
    rcases List.mem_cons.1 hm with e | hm
    · exact ho.u (congrArg EdgeDecl.src e)
    · exact ho.dst _ hm rfl
  · intro e he
    rcases List.mem_cons.1 (h.edges'.mem_iff.1 he) with rfl | he
    · exact ⟨hsub huv.1, hg⟩
    rcases List.mem_cons.1 he with rfl | he
    · exact ⟨hg, hsub huv.2⟩
    · exact ⟨hsub (hb.ends e (hes e he)).1, hsub (hb.ends e (hes e he)).2⟩
  · intro e he
    rcases List.mem_cons.1 (h.edges'.mem_iff.1 he) with rfl | he
    · exact ho.u
    rcases List.mem_cons.1 he with rfl | he
    · exact ho.v.symm
    · exact hb.noSelf e (hes e he)
  · rw [h.storages]; exact hb.storages
  · intro w hw n hn
    exact hsub (hb.members w (h.storages ▸ hw) n hn)
  · intro d hd
    rw [h.nodes] at hd
    rcases List.mem_append.1 hd with hd | hd
    · have hc := hb.connected d hd
      have hne : ¬ g = d.name := fun e => hf (List.mem_map.2 ⟨d, hd, e.symm⟩)
      unfold Connected at hc ⊢
      cases hk : d.kind <;> simp only [hk, ne_eq, into_nil, from_nil, h.edges'.mem_iff, h.edges.mem_iff, List.forall_mem_cons, hne,
        not_false_eq_true, true_and] at hc ⊢ <;> exact hc
    · rw [List.mem_singleton] at hd
      subst hd
      simp [Connected, into_nil, from_nil, h.edges'.mem_iff]

/-- **C110 (errors).** After any steps before, the program of a step is made with the link exactly if it is without. -/
theorem C110_step (h : Inserted b b' u v g es) (hm : SameElse b M M') (hb : b.build = .ok M.net) (hb' : b'.build = .ok M'.net)
    (hM : Treated M) (hg : GroupsAre M sets) (hg' : GroupsAre M' sets')
    (hr : Reach M big negBig sets s) (hr' : Reach M' big negBig sets' s') :
    (∃ s₁, step M' s' st = .ok s₁) ↔ ∃ s₁, step M s st = .ok s₁ := by
  have hM' := treated_ins h hm hb hb' hM
  rw [C86_defined M hM.valid hM.members hM.factors sets hg big negBig s hr,
    C86_defined M' hM'.valid hM'.members hM'.factors sets' hg' big negBig s' hr']
  exact defined_ins h hm hb hb' (fresh h ((C49_build_iff b').1 ⟨_, hb'⟩))

/-- **C110 (the link).** What flows into the link flows out of it. -/
theorem C110_link (h : Inserted b b' u v g es) (hb : b.build = .ok M.net) (hb' : b'.build = .ok M'.net)
    (hm : SameElse b M M') (hM : Treated M) (hgr' : GroupsAre M' sets') (hr' : Reach M' big negBig sets' s') (hd : 0 < st.days)
    (h1' : step M' s' st = .ok s₁') (φ' : EdgeDecl → ℚ) (ha : Allows s₁' b' φ') : ∃ φ, Through u v g es φ φ' := by
  have hM' := treated_ins h hm hb hb' hM
  have hv := (C49_build_iff b).1 ⟨_, hb⟩
  have ho := off h hv (fresh h ((C49_build_iff b').1 ⟨_, hb'⟩))
  obtain ⟨x, hx, hmx⟩ := ha
  have hB := (C86_sound M' hM'.valid hM'.members hM'.factors sets' hgr' big negBig s' s₁' hr' st hd h1' x hx).1.balanced
  have hB' : Balanced M'.net (along b' φ') := by
    have hw := Created.wf hM'.valid
    have key := (means_flow hb').1 hmx
    intro n hn hk
    have e1 : n.incoming.map (along b' φ') = n.incoming.map (s₁'.flow x) :=
      List.map_congr_left fun e he => (key e (edges_in_range hw n hn e (Or.inl he))).symm
    have e2 : n.outgoing.map (along b' φ') = n.outgoing.map (s₁'.flow x) :=
      List.map_congr_left fun e he => (key e (edges_in_range hw n hn e (Or.inr he))).symm
    rw [e1, e2]
    exact hB n hn hk
  have hl := balanced_link h hb' ho hB'
  have hno : (⟨u, v⟩ : EdgeDecl) ∉ es := (List.nodup_cons.1 (h.edges.nodup_iff.1 hv.edges)).1
  refine ⟨fun e => if e = ⟨u, v⟩ then φ' ⟨u, g⟩ else φ' e, ?_, ?_, fun e he => ?_⟩
  · simp
  · simp [hl]
  · have : e ≠ ⟨u, v⟩ := fun e1 => hno (e1 ▸ he)
    simp [this]

/-- Flows before can be sent through the link. -/
theorem through_exists (ho : Off u v g es) (φ : EdgeDecl → ℚ) : ∃ φ', Through u v g es φ φ' := by
  refine ⟨fun e => if e.src = g ∨ e.dst = g then φ ⟨u, v⟩ else φ e, ?_, ?_, fun e he => ?_⟩
  · simp
  · simp
  · simp [ho.src e he, ho.dst e he]

/-- **C110 (flows).** The program of a step allows the same flows at the same cost with the link and without. -/
theorem C110_flows (h : Inserted b b' u v g es) (hm : SameElse b M M') (hb : b.build = .ok M.net) (hb' : b'.build = .ok M'.net)
    (hM : Treated M) (hgr : GroupsAre M sets) (hgr' : GroupsAre M' sets') (hbig : 1000000 ≤ big) (hmax : big ≤ f64MAX)
    (hr : Reach M big negBig sets s) (hr' : Reach M' big negBig sets' s') (hd : 0 < st.days)
    (h1 : step M s st = .ok s₁) (h1' : step M' s' st = .ok s₁') {φ φ' : EdgeDecl → ℚ} (ht : Through u v g es φ φ') (c : ℚ) :
    Costs s₁' b' φ' c ↔ Costs s₁ b φ c := by
  have hM' := treated_ins h hm hb hb' hM
  have hf := fresh h ((C49_build_iff b').1 ⟨_, hb'⟩)
  have ho := off h ((C49_build_iff b).1 ⟨_, hb⟩) hf
  have hdef := (C86_defined M hM.valid hM.members hM.factors sets hgr big negBig s hr st).1 ⟨s₁, h1⟩
  obtain ⟨k₀, hk₀⟩ := costs_exist hb st.metric hdef.costs
  obtain ⟨k, hkg, hk⟩ : ∃ k : Name → ℚ, k g = 0 ∧ ∀ n ∈ M.net.nodes, n.incoming ≠ [] ∨ n.outgoing ≠ [] → CostIs M st.metric n (k n.name) := by
    refine ⟨fun x => if x = g then 0 else k₀ x, by simp, fun n hn hu => ?_⟩
    obtain ⟨i, d, hi, rfl⟩ := (mem_nodes hb _).1 hn
    have : (nodeOf b i d).name ≠ g := name_ne hf hi
    simp only [this, if_false]
    exact hk₀ _ hn hu
  have hk' : ∀ n ∈ M'.net.nodes, n.incoming ≠ [] ∨ n.outgoing ≠ [] → CostIs M' st.metric n (k n.name) := by
    refine (forall_after h hb hb' (fun n => n.incoming ≠ [] ∨ n.outgoing ≠ [] → CostIs M st.metric n (k n.name)) _ fun i d hi => ?_).2 ⟨hk, fun _ => ?_⟩
    · rw [used_ins h hf hi, cost_ins h hm st.metric hi]
      exact Iff.rfl
    · have : k (nodeOf b' b.nodes.length ⟨g, .link⟩).name = 0 := hkg
      rw [this]
      exact cost_link hm _
  have ha : Allows s₁' b' φ' ↔ Allows s₁ b φ := by
    rw [allows_iff hb hM hgr hbig hr hd h1, allows_iff hb' hM' hgr' hbig hr' hd h1', within_ins h hm hb hb' hf hM.valid ht]
    refine and_congr_left fun hw => ?_
    exact allowed_ins h hm hb hb' hf ho hM.valid ht
      (le_trans ((forall_edges hb φ fun q => q ≤ big).1 hw.edges _ (h.edges.mem_iff.2 List.mem_cons_self)) hmax)
  constructor
  · rintro ⟨x, hx, hmx, rfl⟩
    obtain ⟨y, hy, hmy⟩ := ha.1 ⟨x, hx, hmx⟩
    exact ⟨y, hy, hmy, by rw [objective_is hb hM hgr hr hd h1 hk hy hmy, objective_is hb' hM' hgr' hr' hd h1' hk' hx hmx,
      total_ins h hb hb' hf ht k hkg]⟩
  · rintro ⟨x, hx, hmx, rfl⟩
    obtain ⟨y, hy, hmy⟩ := ha.2 ⟨x, hx, hmx⟩
    exact ⟨y, hy, hmy, by rw [objective_is hb hM hgr hr hd h1 hk hx hmx, objective_is hb' hM' hgr' hr' hd h1' hk' hy hmy,
      total_ins h hb hb' hf ht k hkg]⟩

/-- **C110 (allocation).** Flows are of least cost with the link exactly if they are without. -/
theorem C110_best (h : Inserted b b' u v g es) (hm : SameElse b M M') (hb : b.build = .ok M.net) (hb' : b'.build = .ok M'.net)
    (hM : Treated M) (hgr : GroupsAre M sets) (hgr' : GroupsAre M' sets') (hbig : 1000000 ≤ big) (hmax : big ≤ f64MAX)
    (hr : Reach M big negBig sets s) (hr' : Reach M' big negBig sets' s') (hd : 0 < st.days)
    (h1 : step M s st = .ok s₁) (h1' : step M' s' st = .ok s₁') {φ φ' : EdgeDecl → ℚ} (ht : Through u v g es φ φ') :
    Best s₁' b' φ' ↔ Best s₁ b φ := by
  have ho := off h ((C49_build_iff b).1 ⟨_, hb⟩) (fresh h ((C49_build_iff b').1 ⟨_, hb'⟩))
  have key {ψ ψ' : EdgeDecl → ℚ} (ht : Through u v g es ψ ψ') (c : ℚ) :=
    C110_flows h hm hb hb' hM hgr hgr' hbig hmax hr hr' hd h1 h1' ht c
  constructor
  · rintro ⟨x, hx, hmx, hbest⟩
    obtain ⟨y, hy, hmy, hc⟩ := (key ht _).1 ⟨x, hx, hmx, rfl⟩
    refine ⟨y, hy, hmy, fun z hz => ?_⟩
    obtain ⟨ψ, hψ⟩ := means_exists hb s₁ z
    obtain ⟨ψ', ht'⟩ := through_exists ho ψ
    obtain ⟨w, hw, -, hcw⟩ := (key ht' _).2 ⟨z, hz, hψ, rfl⟩
    rw [hc, ← hcw]
    exact hbest w hw
  · rintro ⟨x, hx, hmx, hbest⟩
    obtain ⟨y, hy, hmy, hc⟩ := (key ht _).2 ⟨x, hx, hmx, rfl⟩
    refine ⟨y, hy, hmy, fun z hz => ?_⟩
    obtain ⟨ψ', hψ⟩ := means_exists hb' s₁' z
    obtain ⟨ψ, ht'⟩ := C110_link h hb hb' hm hM hgr' hr' hd h1' ψ' ⟨z, hz, hψ⟩
    obtain ⟨w, hw, -, hcw⟩ := (key ht' _).1 ⟨z, hz, hψ, rfl⟩
    rw [hc, ← hcw]
    exact hbest w hw

end Verif.Insert
