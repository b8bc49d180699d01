import Verif.Lemmas.Typed
import Verif.Props.Whole
import Verif.Props.Kinds
import Verif.Props.Curves

/-!
# C88: networks with parameters of the types of the code, from end to end
-/

namespace Verif.Coupled

open Verif.State Verif.Solver Verif.Time Verif.Simulation
open Verif.Params (Ref Given)

variable {T : Typed} {net : Params.Network} {n : Nat} {h : Kinds.Record Seen} {cs : List Kinds.Val} {input : Nat → Inp}
  {record : Nat → Record}

/-- **C88.** Values `vs` of parameters and `os` of metrics of components are reported at the end of a run of `n + 1` steps exactly when
there is a run in which every parameter has, at every step, the value its type defines from what its metrics show; the network is simulated
with the values its nodes refer to; and the metrics show the flows and volumes of the simulation. -/
theorem C88_run (hv : T.Valid) (hb : T.whole.build = some net) (refs : List Ref) (comps : List Comp) (n : Nat) (vs : List Kinds.Val)
    (os : List (Option ℚ)) :
    T.whole.report net refs comps n = some (some (vs, os)) ↔
      ∃ h cs input record, T.Runs (n + 1) h cs input record ∧
        Given (Kinds.builders T.ps) h ⟨0, 0⟩ .after n (refs.map fun r => ⟨r, .after⟩) vs ∧ os = comps.map (h.world (n + 1)) := by
  have hn := Typed.nodup hv hb
  rw [C83_run hv.whole hb]
  constructor
  · rintro ⟨H, cs, input, record, h1, h2, h3⟩
    exact ⟨Kinds.erase H, cs, input, record, Typed.runs_of_whole hn h1, (Kinds.given_of_value rfl).1 h2, h3⟩
  · rintro ⟨h, cs, input, record, h1, h2, h3⟩
    obtain ⟨H, e1, e2, -, h4⟩ := Typed.whole_of_runs hn h1
    exact ⟨H, cs, input, record, h4, (Kinds.given_of_value e1.symm).1 h2, by rw [e2]; exact h3⟩

/-- **C88 (failures).** A run fails exactly when there is none. -/
theorem C88_fails (hv : T.Valid) (hb : T.whole.build = some net) (n : Nat) :
    T.whole.report net [] [] n = some none ↔ ¬ ∃ h cs input record, T.Runs (n + 1) h cs input record := by
  have hn := Typed.nodup hv hb
  rw [C83_fails hv.whole hb]
  apply not_congr
  constructor
  · rintro ⟨H, cs, input, record, h1⟩
    exact ⟨_, cs, input, record, Typed.runs_of_whole hn h1⟩
  · rintro ⟨h, cs, input, record, h1⟩
    obtain ⟨H, -, -, -, h4⟩ := Typed.whole_of_runs hn h1
    exact ⟨H, cs, input, record, h4⟩

/-- **C88 (one run).** All runs show the same: the values of parameters and the metrics of components at the end. -/
theorem C88_unique (hv : T.Valid) (hb : T.whole.build = some net) (n : Nat) {h' : Kinds.Record Seen} {cs' : List Kinds.Val}
    {input' : Nat → Inp} {record' : Nat → Record} (hr : T.Runs (n + 1) h cs input record) (hr' : T.Runs (n + 1) h' cs' input' record') :
    h.world (n + 1) = h'.world (n + 1) ∧ ∀ (refs : List Ref) (vs : List Kinds.Val),
      Given (Kinds.builders T.ps) h ⟨0, 0⟩ .after n (refs.map fun r => ⟨r, .after⟩) vs →
      Given (Kinds.builders T.ps) h' ⟨0, 0⟩ .after n (refs.map fun r => ⟨r, .after⟩) vs := by
  have hn := Typed.nodup hv hb
  have hn' : ((Kinds.builders T.ps).map Params.Builder.name).Nodup := by rwa [Kinds.builders_names]
  have key : ∀ c, h.world (n + 1) c = h'.world (n + 1) c := by
    intro c
    have e1 := (C88_run hv hb [] [c] n [] [h.world (n + 1) c]).2 ⟨h, cs, input, record, hr, by simp [Given], rfl⟩
    have e2 := (C88_run hv hb [] [c] n [] [h'.world (n + 1) c]).2 ⟨h', cs', input', record', hr', by simp [Given], rfl⟩
    rw [e1] at e2
    simpa using e2
  refine ⟨funext key, fun refs vs hg => ?_⟩
  have e1 := (C88_run hv hb refs [] n vs []).2 ⟨h, cs, input, record, hr, hg, rfl⟩
  obtain ⟨H, ho⟩ : ∃ vs', Given (Kinds.builders T.ps) h' ⟨0, 0⟩ .after n (refs.map fun r => ⟨r, .after⟩) vs' := by
    have key : ∀ us : List Params.Use, (∃ vs, List.Forall₂ (Params.Means (Kinds.builders T.ps) h ⟨0, 0⟩ .after n) us vs) →
        ∃ vs, List.Forall₂ (Params.Means (Kinds.builders T.ps) h' ⟨0, 0⟩ .after n) us vs := by
      intro us
      induction us with
      | nil => intro _; exact ⟨[], .nil⟩
      | cons u us ih =>
        rintro ⟨vs, hvs⟩
        obtain ⟨v, vs', ⟨m, sh, a1, a2, -⟩, b2, rfl⟩ := List.forall₂_cons_left_iff.1 hvs
        obtain ⟨ws, hws⟩ := ih ⟨vs', b2⟩
        exact ⟨_ :: ws, .cons ⟨m, sh, a1, a2, rfl⟩ hws⟩
    exact key _ ⟨vs, hg⟩
  have e2 := (C88_run hv hb refs [] n H []).2 ⟨h', cs', input', record', hr', ho, rfl⟩
  rw [e1] at e2
  simp only [Option.some.injEq, Prod.mk.injEq, and_true] at e2
  rw [e2]
  exact ho

/-- **C88 (limits).** The flow of a node whose maximum flow is the value of a parameter is at most that value, in every step; and likewise
for its minimum flow. -/
theorem C88_limits (hv : T.Valid) (hb : T.whole.build = some net) (hr : T.Runs n h cs input record) (hs : (T.sim cs).Valid)
    (hi : (T.sim cs).InputsOk ((List.range n).map input)) (t : Nat) (ht : t < n) (i : Nat) (nd : Verif.Topology.TNode)
    (hn : (T.sim cs).net.nodes[i]? = some nd) (hk : nd.kind ≠ .storage) (hg : ¬ InGroup (T.sim cs).model i)
    (p : Kinds.Param Seen) (hp : p ∈ T.ps) (form : Params.Form)
    (hf : Params.Takes (Kinds.builders T.ps) (p.kind.builder p.name) form) (he : form = .simple ∨ ∃ a, form = .general true a) :
    (T.RefersTo ((T.sim cs).data i).maxFlow p.name → nodeFlow (record t).flow nd ≤ (Kinds.early h p.name form t).num) ∧
    (T.RefersTo ((T.sim cs).data i).minFlow p.name → (Kinds.early h p.name form t).num ≤ nodeFlow (record t).flow nd) := by
  obtain ⟨H, -, -, -, hw⟩ := Typed.whole_of_runs (Typed.nodup hv hb) hr
  have hok := runOk_at n _ _ _ (C83_limits hw hs hi).1 t ht
  have hidx := (Created.wf (M := (T.sim cs).model) (hv.sims cs)).nodeIndex i nd hn
  have hl := hok.allowed.nodes nd (List.mem_of_getElem? hn) hk (by rw [hidx]; exact hg)
  rw [hidx] at hl
  constructor
  · intro hm
    obtain ⟨u, hu, hle⟩ := Simulation.atMost_iff.1 hl.2
    rwa [hr.refers hv hb ht hp hm hf he hu] at hle
  · intro hm
    obtain ⟨u, hu, hle⟩ := Simulation.atLeast_iff.1 hl.1
    rwa [hr.refers hv hb ht hp hm hf he hu] at hle

/-- Every parameter is calculated in some way. -/
theorem Typed.takes (_ : T.Valid) (hb : T.whole.build = some net) {p : Kinds.Param Seen} (hp : p ∈ T.ps) :
    ∃ form, Params.Takes (Kinds.builders T.ps) (p.kind.builder p.name) form :=
  Kinds.takes_of_build T.ps (T.whole.params.length + 1) T.whole.nodeRefs T.whole.solveRefs net (by simp [Typed.whole, Kinds.builders]) hb p
    hp

/-- **C88 (return flows).** A node whose maximum flow is a delay of the outflow of a node `k` carries at step `t` at most what left `k` at
step `t - d`, and the initial value in the first `d` steps; likewise for minimum flows. -/
theorem C88_return_flow (hv : T.Valid) (hb : T.whole.build = some net) (hr : T.Runs n h cs input record) (hs : (T.sim cs).Valid)
    (hi : (T.sim cs).InputsOk ((List.range n).map input)) (t : Nat) (ht : t < n) (i : Nat) (nd : Verif.Topology.TNode)
    (hn : (T.sim cs).net.nodes[i]? = some nd) (hk : nd.kind ≠ .storage) (hg : ¬ InGroup (T.sim cs).model i)
    (name : Params.Name) (k d : Nat) (init : ℚ) (hp : ⟨name, .delay (component (.nodeOutFlow k)) d init⟩ ∈ T.ps) :
    (T.RefersTo ((T.sim cs).data i).maxFlow name → (t < d → nodeFlow (record t).flow nd ≤ init) ∧
      (d ≤ t → nodeFlow (record t).flow nd ≤ outSum (T.sim cs).net.edges (record (t - d)).flow k)) ∧
    (T.RefersTo ((T.sim cs).data i).minFlow name → (t < d → init ≤ nodeFlow (record t).flow nd) ∧
      (d ≤ t → outSum (T.sim cs).net.edges (record (t - d)).flow k ≤ nodeFlow (record t).flow nd)) := by
  obtain ⟨form, hf⟩ := T.takes hv hb hp
  have he : form = .simple ∨ ∃ a, form = .general true a := by
    rcases Kinds.hook_forms rfl hf with h | h
    · exact .inl h
    · exact .inr ⟨_, h⟩
  have hlim := C88_limits hv hb hr hs hi t ht i nd hn hk hg _ hp form hf he
  obtain ⟨x, h1, -, h2⟩ := hr.params _ hp form hf
  have hval : (t < d → (Kinds.early h name form t).num = init) ∧
      (d ≤ t → (Kinds.early h name form t).num = outSum (T.sim cs).net.edges (record (t - d)).flow k) := by
    refine ⟨fun hd => by rw [(h2 t ht).1 hd], fun hd => ?_⟩
    rw [(h2 t ht).2 hd]
    obtain ⟨w, q, e1, e2, e3⟩ := shows_component.1 (h1 (t - d) (by omega))
    simp only [Kinds.visible, Option.some_inj] at e1
    subst e1
    obtain ⟨g, g1, -, g3⟩ := hr.world (t - d) (by omega)
    have := ((g3 _ _).1 e2).2
    rw [g1.flow] at this
    rw [e3, ← this]
    rfl
  constructor
  · intro hm
    have := hlim.1 hm
    exact ⟨fun hd => by rw [← hval.1 hd]; exact this, fun hd => by rw [← hval.2 hd]; exact this⟩
  · intro hm
    have := hlim.2 hm
    exact ⟨fun hd => by rw [← hval.1 hd]; exact this, fun hd => by rw [← hval.2 hd]; exact this⟩

/-- **C88 (deficits).** A deficit of the inflow of an output against its maximum flow is, at the end of every step, exactly the maximum
less the inflow of that step, which is not negative; so deficit and supply add up to the demand. -/
theorem C88_deficit (hv : T.Valid) (hb : T.whole.build = some net) (hr : T.Runs n h cs input record) (hs : (T.sim cs).Valid)
    (hi : (T.sim cs).InputsOk ((List.range n).map input)) (t : Nat) (ht : t < n) (i : Nat) (nd : Verif.Topology.TNode)
    (hn : (T.sim cs).net.nodes[i]? = some nd) (hk : nd.kind = .output) (hg : ¬ InGroup (T.sim cs).model i)
    (name : Params.Name) (hp : ⟨name, .deficit (component (.nodeInFlow i)) (component (.nodeMaxFlow i))⟩ ∈ T.ps) :
    ∃ m, ValueIs (input t).metric ((T.sim cs).data i).maxFlow f64MAX m ∧ 0 ≤ (h.value t .after name).num ∧
      (h.value t .after name).num + nodeFlow (record t).flow nd = m := by
  obtain ⟨form, hf⟩ := T.takes hv hb hp
  have hform : form = .general false .value := by
    obtain ⟨shapes, -, rfl⟩ := hf
    rfl
  have h1 := hr.params _ hp form hf
  subst hform
  obtain ⟨x, y, ⟨v, hx, rfl⟩, ⟨v', hy, rfl⟩, h2, -⟩ := h1.2 rfl t ht
  obtain ⟨w, q, e1, e2, rfl⟩ := shows_component.1 hx
  obtain ⟨w', m, e1', e2', rfl⟩ := shows_component.1 hy
  simp only [Kinds.visible, Option.some_inj] at e1 e1'
  subst e1 e1'
  obtain ⟨H, -, hw1, -, hw⟩ := Typed.whole_of_runs (Typed.nodup hv hb) hr
  have hle : q ≤ m := C83_deficit hv.whole hw hs hi t ht i nd hn hk m q (by rw [hw1]; exact e2') (by rw [hw1]; exact e2) (.inl hg)
  obtain ⟨g, g1, g2, g3⟩ := hr.world t ht
  obtain ⟨nd', f1, -, f2⟩ := (g2 i m).1 ((g3 _ _).1 e2')
  obtain ⟨-, rfl⟩ := (g3 _ _).1 e2
  have hq : nodeFlow (record t).flow nd = inSum (T.sim cs).net.edges g.flow i := by
    rw [g1.flow]
    unfold nodeFlow
    rw [hk]
    exact (inSum_eq hs (record t).flow hn).symm
  simp only [Kinds.ofF] at h2
  refine ⟨m, f2, ?_, ?_⟩
  · rw [h2]; exact le_max_right _ _
  · rw [h2, hq, max_eq_left (by linarith)]; ring

/-- **C88 (demand restrictions).** If the maximum flow of a node is taken from two numbers by a threshold on the proportional volume of a
reservoir, then at every step after the first the flow is at most the second number if the reservoir was below the threshold at the end of
the step before, and the first number otherwise. -/
theorem C88_restriction (hv : T.Valid) (hb : T.whole.build = some net) (hr : T.Runs n h cs input record) (hs : (T.sim cs).Valid)
    (hi : (T.sim cs).InputsOk ((List.range n).map input)) (t : Nat) (ht : t + 1 < n) (ht0 : (T.time (t + 1)).index ≠ 0) (i : Nat)
    (nd : Verif.Topology.TNode) (hn : (T.sim cs).net.nodes[i]? = some nd) (hk : nd.kind ≠ .storage) (hg : ¬ InGroup (T.sim cs).model i)
    (below demand : Params.Name) (r : Nat) (level normal reduced : ℚ)
    (hp1 : ⟨below, .threshold (component (.nodeProportionalVolume r)) (.lit (Kinds.ofF level)) .lessThan false⟩ ∈ T.ps)
    (hp2 : ⟨demand, .indexed (.param (.index below .before)) [.lit (Kinds.ofF normal), .lit (Kinds.ofF reduced)]⟩ ∈ T.ps)
    (hm : T.RefersTo ((T.sim cs).data i).maxFlow demand) :
    ∃ v m, h.world (t + 1) (.nodeVolume r) = some v ∧ h.world (t + 1) (.nodeMaxVolume r) = some m ∧
      nodeFlow (record (t + 1)).flow nd ≤ if share v m < level then reduced else normal := by
  obtain ⟨f1, hf1⟩ := T.takes hv hb hp1
  obtain ⟨f2, hf2⟩ := T.takes hv hb hp2
  have hlim := (C88_limits hv hb hr hs hi (t + 1) ht i nd hn hk hg _ hp2 f2 hf2 (.inr ⟨_, Kinds.one_form rfl hf2⟩)).1 hm
  have h1 := hr.params _ hp1 f1 hf1
  have h2 := hr.params _ hp2 f2 hf2
  have hn' : ((Kinds.builders T.ps).map Params.Builder.name).Nodup := by
    rw [Kinds.builders_names]; exact Typed.nodup hv hb
  have he1 : f1 = .simple ∨ ∃ a, f1 = .general true a := .inr ⟨_, Kinds.one_form rfl hf1⟩
  obtain rfl := Kinds.one_form rfl hf2
  obtain ⟨k, ⟨v, hv', rfl⟩, hlt, q, ⟨u, hu, rfl⟩, h3, -⟩ := h2.1 rfl (t + 1) ht
  obtain rfl := shows_index (bs := Kinds.builders T.ps) (b := Kinds.Kind.builder below _) hn' (List.mem_map.2 ⟨_, hp1, rfl⟩) hf1 he1 hv'
  have hlim' : nodeFlow (record (t + 1)).flow nd ≤ u.num := by
    rw [← h3]; exact hlim
  obtain ⟨H, -, hw1, hw2, hw⟩ := Typed.whole_of_runs (Typed.nodup hv hb) hr
  rcases h1 (t + 1) ht with ⟨h4, -⟩ | ⟨-, a, b, ⟨x, hx, rfl⟩, ⟨y, hy, rfl⟩, h5, h6⟩
  · cases h4
  obtain rfl : y = Kinds.ofF level := hy
  obtain ⟨w, q, e1, e2, rfl⟩ := shows_component.1 hx
  simp only [Kinds.visible, Option.some_inj] at e1
  subst e1
  have hcar := C83_carried hv.whole hw t ht ht0 (.nodeProportionalVolume r) rfl
  rw [hw1, hw2, e2] at hcar
  have hst : IsStorage (T.sim cs) r := by
    obtain ⟨g, -, -, g3⟩ := hr.world t (by omega)
    exact ((g3 _ _).1 hcar.symm).1
  obtain ⟨v, m, e3, e4, e5⟩ := (C83_proportion hv.whole hw t (by omega)).1 r hst
  rw [hw1] at e3 e4 e5
  rw [e5, Option.some_inj] at hcar
  subst hcar
  refine ⟨v, m, e3, e4, le_trans hlim' ?_⟩
  by_cases hc : share v m < level
  · have h7 : (Kinds.early h below f1 (t + 1)).idx = 1 := (h5 hc).1
    rw [if_pos hc]
    have : u = Kinds.ofF reduced := by
      have e := hu
      simp only [Kinds.Kind.builder, h7] at e
      exact e
    rw [this]; rfl
  · have h7 : (Kinds.early h below f1 (t + 1)).idx = 0 := (h6 hc).1
    rw [if_neg hc]
    have : u = Kinds.ofF normal := by
      have e := hu
      simp only [Kinds.Kind.builder, h7] at e
      exact e
    rw [this]; rfl

theorem curveFrom_ok {x : ℚ} {values : List (Option ℚ)} : ∀ {cs : List (Option ℚ)} {k : Nat} {v : ℚ},
    Curves.curveFrom x values cs k = .ok v →
      ∃ i, Curves.InBand x cs i ∧ (if i < cs.length then values[k + i]? else values.getLast?) = some (some v) := by
  intro cs
  induction cs with
  | nil =>
    intro k v h
    refine ⟨0, ⟨le_rfl, by omega, by simp⟩, ?_⟩
    simp only [Curves.curveFrom] at h
    cases hl : values.getLast? with
    | none => rw [hl] at h; cases h
    | some o =>
      rw [hl] at h
      cases o with
      | none => cases h
      | some u => cases h; rw [if_neg (by simp)]
  | cons c cs ih =>
    intro k v h
    cases c with
    | none => cases h
    | some c =>
      simp only [Curves.curveFrom] at h
      by_cases hx : x ≥ c
      · rw [if_pos hx] at h
        refine ⟨0, ⟨by omega, by omega, fun d hd => ⟨c, (Option.some.inj hd).symm, hx⟩⟩, ?_⟩
        rw [if_pos (by simp), Nat.add_zero]
        cases hl : values[k]? with
        | none => rw [hl] at h; cases h
        | some o =>
          rw [hl] at h
          cases o with
          | none => cases h
          | some u => cases h; rfl
      · rw [if_neg hx] at h
        obtain ⟨i, ⟨h1, h2, h3⟩, h4⟩ := ih h
        refine ⟨i + 1, ⟨by simpa using h1, ?_, by simpa using h3⟩, ?_⟩
        · intro j hj
          cases j with
          | zero => exact ⟨c, rfl, lt_of_not_ge hx⟩
          | succ j => rw [List.getElem?_cons_succ]; exact h2 j (by omega)
        · rw [show k + (i + 1) = k + 1 + i by omega]
          simpa using h4

theorem forall₂_get {α β : Type} {R : α → β → Prop} {as : List α} {bs : List β} (h : List.Forall₂ R as bs) {i : Nat} {b : β}
    (hb : bs[i]? = some b) : ∃ a, as[i]? = some a ∧ R a b := by
  induction h generalizing i with
  | nil => simp at hb
  | cons h1 _ ih =>
    cases i with
    | zero => cases hb; exact ⟨_, rfl, h1⟩
    | succ i => exact ih (by simpa using hb)

/-- **C88 (control curves).** The value of a control curve in every step is what the metric of its band shows: the band is the position of
the first curve that the level is not below, and below all curves the last value is used. Metrics of later curves and other values
are not looked at. -/
theorem C88_curve (hv : T.Valid) (hb : T.whole.build = some net) (hr : T.Runs n h cs input record) (t : Nat) (ht : t < n)
    (name : Params.Name) (x : Kinds.Source Seen) (curves values : List (Kinds.Source Seen)) (hp : ⟨name, curve x curves values⟩ ∈ T.ps) :
    ∃ level i s q, Kinds.Num (Kinds.builders T.ps) h .before t .before x level ∧
      Kinds.First .greaterThanOrEqualTo level (Kinds.Num (Kinds.builders T.ps) h .before t .before) curves i ∧
      (if i < curves.length then values[i]? else values.getLast?) = some s ∧
      Kinds.Num (Kinds.builders T.ps) h .before t .before s q ∧ (h.value t .before name).num = q := by
  obtain ⟨form, hf⟩ := T.takes hv hb hp
  have h1 := hr.params _ hp form hf
  obtain rfl := Kinds.one_form rfl hf
  obtain ⟨xs, q, h2, h3, h4, -⟩ := h1.1 rfl t ht
  obtain ⟨o, os, h5, h6, rfl⟩ := List.forall₂_cons_left_iff.1 h2
  obtain ⟨os1, os2, rfl, h7, h8⟩ := forall₂_append_iff.1 h6
  have hl := h7.length_eq
  simp only [List.map_cons, List.map_append] at h3
  rw [List.take_left' (by simp [hl]), List.drop_left' (by simp [hl])] at h3
  cases o with
  | none => cases h3
  | some lv =>
    simp only [Curves.controlCurve, Option.map_some] at h3
    cases hc : Curves.curveFrom lv.num (os2.map fun o => o.map Kinds.Val.num) (os1.map fun o => o.map Kinds.Val.num) 0 with
    | error e => rw [hc] at h3; cases h3
    | ok q' =>
      rw [hc] at h3
      obtain rfl : q' = q := Option.some.inj h3
      obtain ⟨i, ⟨b1, b2, b3⟩, b4⟩ := curveFrom_ok hc
      simp only [List.length_map, ← hl] at b1 b4
      have num : ∀ {s : Kinds.Source Seen} {o : Option Kinds.Val} {c : ℚ},
          (∀ v, o = some v ↔ Kinds.Shows (Kinds.builders T.ps) h .before t .before s v) → o.map Kinds.Val.num = some c →
          Kinds.Num (Kinds.builders T.ps) h .before t .before s c := by
        intro s o c ho hm
        obtain ⟨v, e1, rfl⟩ := Option.map_eq_some_iff.1 hm
        exact ⟨v, (ho v).1 e1, rfl⟩
      have val : ∀ {k : Nat} , (os2.map fun o => o.map Kinds.Val.num)[k]? = some (some q') → ∃ s, values[k]? = some s ∧
          Kinds.Num (Kinds.builders T.ps) h .before t .before s q' := by
        intro k hk
        obtain ⟨o, e1, e2⟩ := Option.map_eq_some_iff.1 (by rwa [List.getElem?_map] at hk)
        obtain ⟨s, e3, e4⟩ := forall₂_get h8 e1
        exact ⟨s, e3, num e4 e2⟩
      have hsel : ∃ s, (if i < curves.length then values[i]? else values.getLast?) = some s ∧
          Kinds.Num (Kinds.builders T.ps) h .before t .before s q' := by
        by_cases hi : i < curves.length
        · rw [if_pos hi] at b4 ⊢
          rw [Nat.zero_add] at b4
          exact val b4
        · rw [if_neg hi] at b4 ⊢
          rw [List.getLast?_eq_getElem?] at b4 ⊢
          rw [List.length_map, ← h8.length_eq] at b4
          exact val b4
      obtain ⟨s, s1, s2⟩ := hsel
      refine ⟨lv.num, i, s, q', ⟨lv, (h5 lv).1 rfl, rfl⟩, ⟨b1, ?_, ?_⟩, s1, s2, h4⟩
      · intro j hj s hs
        obtain ⟨c, c1, c2⟩ := b2 j hj
        obtain ⟨o, e1, e2⟩ := Option.map_eq_some_iff.1 (by rwa [List.getElem?_map] at c1)
        obtain ⟨s', e3, e4⟩ := forall₂_get h7 e1
        rw [hs, Option.some_inj] at e3
        subst e3
        exact ⟨c, num e4 e2, not_le.2 c2⟩
      · intro s hs
        have hlt := (List.getElem?_eq_some_iff.1 hs).1
        obtain ⟨o, e1⟩ : ∃ o, os1[i]? = some o := ⟨_, List.getElem?_eq_getElem (by omega)⟩
        obtain ⟨c, c1, c2⟩ := b3 (o.map Kinds.Val.num) (by rw [List.getElem?_map, e1]; rfl)
        obtain ⟨s', e3, e4⟩ := forall₂_get h7 e1
        rw [hs, Option.some_inj] at e3
        subst e3
        exact ⟨c, num e4 c1, c2⟩

end Verif.Coupled
