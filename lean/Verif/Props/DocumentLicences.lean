import Verif.Props.Document
import Verif.Props.SchemaLicences
import Mathlib.Algebra.BigOperators.Intervals

/-!
# C99: licences of documents from end to end

A virtual storage of a document is drawn down by the flows of the nodes it refers to, over the whole run.
-/

namespace Verif.EndToEnd

open Verif.State Verif.Solver Verif.Time Verif.Simulation
open Verif.Coupled (World)
open Verif.Load (Story Side SNum SHolds)
open Verif.Schema (Frag Core UMetric Decl SNode VNode RefIs IsLicence nameFlow)

/-- What is used of a licence when the components it refers to have the flows `qs`. -/
def weighed (factors : Option (List ℚ)) (qs : List ℚ) : ℚ :=
  match factors with
  | none => qs.sum
  | some fs => (List.zipWith (· * ·) fs qs).sum

section
variable {D : Document} {E : Setting} {F : Frag} {C : Core} (h : Schema.Built D.numbers D.net F C) {n : Nat} {S : Story Area}
  {f : Nat → Nat → ℚ} {st : Nat → StepState} (H : Happens D E F C n S f st)

theorem zip_use (net : Topology.Network) (f : Nat → ℚ) (c : Option Metric) : ∀ (is : List Nat) (fs : List ℚ),
    vsUse net f ⟨is.zip fs, c⟩ = (List.zipWith (· * ·) fs (is.map (flowAt net f))).sum := by
  intro is
  unfold Solver.vsUse
  induction is with
  | nil => intro fs; simp
  | cons i is ih =>
    intro fs
    cases fs with
    | nil => simp
    | cons g gs => simpa using ih gs

include h in
/-- The virtual storage of a virtual node of the document and what is used of it. -/
theorem licence_use {v : VNode} (hv : v ∈ D.net.virtualNodes) {refs factors cost} (hb : v.body = .virtualStorage refs factors cost)
    (hone : factors.isSome = true → ∀ r ∈ refs, ∃ x, D.net.refNodes r = .ok [x])
    (hriv : ∀ r ∈ refs, ∀ x ∈ D.net.nodes, ∀ b, x.name = r.name → x.body = .river b → r.component.getD .outflow = .outflow →
      b.loss = none ∨ b.routing = none) :
    ∃ k V, IsLicence F v k ∧ C.model.vs[k]? = some V ∧ ∀ st f, Allowed C.model st f →
      ∃ qs, List.Forall₂ (RefIs D.numbers D.net F C st f) refs qs ∧ vsUse C.model.net f V = weighed factors qs := by
  obtain ⟨sets, hsets, hmem⟩ := Schema.virtual_vs h hv hb
  obtain ⟨k, is, hk, his, hC⟩ := Schema.vs_at h hmem
  simp only at his hC
  refine ⟨k, _, by unfold IsLicence; rw [hk]; rfl, hC, fun st f ha => ⟨_, Schema.refs_flows h ha hsets ?_ hriv, ?_⟩⟩
  · intro S hS x hx
    obtain ⟨i, _, hi⟩ := Schema.forall₂_mem his (List.mem_flatten.2 ⟨S, hS, hx⟩)
    obtain ⟨d, hd, hdn⟩ := (Schema.index_ok (Schema.names_nodup h.built) x i).1 hi
    exact List.mem_map.2 ⟨d, List.mem_of_getElem? hd, hdn⟩
  · have hnames := Schema.flows_names h f his
    cases factors with
    | none =>
      rw [Option.getD_none, Schema.use_ones, hnames]
      simp only [weighed]
      clear hsets hmem hk his hC hnames
      induction sets with
      | nil => rfl
      | cons s ss ih =>
        rw [List.flatten_cons, List.map_append, List.sum_append, ih]
        rfl
    | some fs =>
      have hsingle : sets.flatten.map (nameFlow F f) = sets.map (fun s => (s.map (nameFlow F f)).sum) := by
        clear hmem hk his hC hnames hb hriv
        induction hsets with
        | nil => rfl
        | cons hr _ ih =>
          obtain ⟨x, hx⟩ := hone rfl _ List.mem_cons_self
          rw [hx, Except.ok.injEq] at hr
          subst hr
          simpa using ih (fun _ r hr => hone rfl r (by simp [hr]))
      rw [Option.getD_some, zip_use, hnames, hsingle]
      rfl

include h in
/-- A reference to a virtual node of the document. -/
theorem names {v : VNode} (hv : v ∈ D.net.virtualNodes) {r : String} {a : Option Schema.Attr} (hr : D.refs r = .virtual v.name a) {m : VMetric}
    (hm : virtualMetric v a = .ok m) : Names D r m := by
  refine ⟨v.name, a, v, hr, ?_, hm⟩
  have hn := (Schema.validate_ok D.net (Schema.compile_parts h.compiled).choose_spec.choose_spec.choose_spec.valid).2.1
  cases hf : D.net.virtualNodes.find? (fun w => w.name = v.name) with
  | none =>
    have := List.find?_eq_none.1 hf v hv
    simp at this
  | some w =>
    have h1 : w.name = v.name := by simpa using List.find?_some hf
    rw [List.inj_on_of_nodup_map hn (List.mem_of_find?_eq_some hf) hv h1]

/-- The course of a licence over a run: `use t` is what the components it refers to carry in step `t`. -/
structure LicenceCourse (l : Licence) (E : Setting) (n : Nat) (use pre post : Nat → ℚ) : Prop where
  /-- in active steps the use is taken, and no more than there is -/
  taken : ∀ t < n, l.activePeriod.isActive (E.time t).date.date = true → post t = pre t - (E.time t).days * use t
  idle : ∀ t < n, l.activePeriod.isActive (E.time t).date.date = false → post t = pre t
  within : ∀ t < n, l.lo ≤ post t ∧ post t ≤ l.hi
  /-- without a rolling window it starts full, as it does whenever it is not active, and else goes on or is reset -/
  full : l.rollingWindow = none → ∀ t < n, t = 0 ∨ l.activePeriod.isActive (E.time t).date.date = false → pre t = l.full
  kept : l.rollingWindow = none → ∀ t, t + 1 < n → pre (t + 1) = l.full ∨ pre (t + 1) = post t
  never : l.rollingWindow = none → l.reset = .never → ∀ t, t + 1 < n →
    l.activePeriod.isActive (E.time (t + 1)).date.date = true → pre (t + 1) = post t

include h H

/-- **C99 (licences).** The volume of a virtual storage of the document is drawn down in every step by the flows of the components it refers to, each
multiplied by its factor if there are factors, and stays within its bounds. A metric of its volume shows the volume at the end of a
step, and before an allocation what there is for it; a metric of its proportional volume shows the share of its maximum. -/
theorem C99_licence {v : VNode} (hv : v ∈ D.net.virtualNodes) {refs factors cost} (hb : v.body = .virtualStorage refs factors cost)
    (hone : factors.isSome = true → ∀ r ∈ refs, ∃ x, D.net.refNodes r = .ok [x])
    (hriv : ∀ r ∈ refs, ∀ x ∈ D.net.nodes, ∀ b, x.name = r.name → x.body = .river b → r.component.getD .outflow = .outflow →
      b.loss = none ∨ b.routing = none) :
    ∃ k, IsLicence F v k ∧ ∃ (qs : Nat → List ℚ) (pre post : Nat → ℚ),
      (∀ t < n, List.Forall₂ (RefIs D.numbers D.net F C (st t) (f t)) refs (qs t)) ∧
      LicenceCourse (D.licences k) E n (fun t => weighed factors (qs t)) pre post ∧
      (∀ r, D.refs r = .virtual v.name (some .volume) ∨ D.refs r = .virtual v.name none → ∀ t < n, ∀ o q,
        (SNum (D.args E F C) S .early t o (.component r) q ↔ q = pre t) ∧
        (SNum (D.args E F C) S .late t o (.component r) q ↔ q = post t)) ∧
      ∀ r, D.refs r = .virtual v.name (some .proportionalVolume) → ∀ t < n, ∀ o q,
        (SNum (D.args E F C) S .early t o (.component r) q ↔ q = Coupled.share (pre t) (D.licences k).hi) ∧
        (SNum (D.args E F C) S .late t o (.component r) q ↔ q = Coupled.share (post t) (D.licences k).hi) := by
  obtain ⟨k, V, hk, hV, huse⟩ := licence_use h hv hb hone hriv
  obtain ⟨pre, post, hd, hshow⟩ := H.licences k V hV
  choose! qs h1 h2 using fun (t : Nat) (ht : t < n) => huse (st t) (f t) (H.allowed t ht)
  obtain ⟨d, hdk, hdn⟩ := Option.map_eq_some_iff.1 hk
  refine ⟨k, hk, qs, pre, post, h1, ⟨?_, ?_, hd.within, ?_, hd.kept, ?_⟩, ?_, ?_⟩
  · intro t ht ha
    have := hd.used t ht
    rwa [if_pos (by rw [hd.active t ht]; exact ha), h2 t ht] at this
  · intro t ht ha
    have := hd.used t ht
    rwa [if_neg (by rw [hd.active t ht, ha]; decide), mul_zero, sub_zero] at this
  · intro hr t ht e
    exact hd.full hr t ht (by rw [hd.active t ht]; exact e)
  · intro hr hn t ht e
    exact hd.never hr hn t ht (by rw [hd.active _ ht]; exact e)
  · intro r hr t ht
    refine (hshow d hdk t ht r).1 ?_
    rw [hdn]
    rcases hr with hr | hr <;> exact names h hv hr (by simp only [virtualMetric, hb, Option.getD_some, Option.getD_none])
  · intro r hr t ht
    refine (hshow d hdk t ht r).2 ?_
    rw [hdn]
    exact names h hv hr (by simp only [virtualMetric, hb, Option.getD_some])

/-- **C99 (budgets).** What the components of a licence that is never reset carry up to any step of the run, in units of days, is no more
than the licence holds at the start. -/
theorem C99_budget {v : VNode} (hv : v ∈ D.net.virtualNodes) {refs factors cost} (hb : v.body = .virtualStorage refs factors cost)
    (hone : factors.isSome = true → ∀ r ∈ refs, ∃ x, D.net.refNodes r = .ok [x])
    (hriv : ∀ r ∈ refs, ∀ x ∈ D.net.nodes, ∀ b, x.name = r.name → x.body = .river b → r.component.getD .outflow = .outflow →
      b.loss = none ∨ b.routing = none) :
    ∃ k, IsLicence F v k ∧ ((D.licences k).rollingWindow = none → (D.licences k).reset = .never → (D.licences k).activePeriod = .always →
      ∃ qs : Nat → List ℚ, (∀ t < n, List.Forall₂ (RefIs D.numbers D.net F C (st t) (f t)) refs (qs t)) ∧
        ∀ m ≤ n, 0 < m → ∑ t ∈ Finset.range m, (E.time t).days * weighed factors (qs t) ≤ (D.licences k).full - (D.licences k).lo) := by
  obtain ⟨k, hk, qs, pre, post, h1, hc, -⟩ := C99_licence h H hv hb hone hriv
  refine ⟨k, hk, fun hr hn ha => ⟨qs, h1, ?_⟩⟩
  have hact : ∀ t, (D.licences k).activePeriod.isActive (E.time t).date.date = true := fun t => by rw [ha]; rfl
  have hsum : ∀ m, m < n → post m = (D.licences k).full - ∑ t ∈ Finset.range (m + 1), (E.time t).days * weighed factors (qs t) := by
    intro m
    induction m with
    | zero =>
      intro hm
      rw [hc.taken 0 hm (hact 0), hc.full hr 0 hm (.inl rfl)]
      simp
    | succ m ih =>
      intro hm
      rw [hc.taken _ hm (hact _), hc.never hr hn m hm (hact _), ih (by omega), Finset.sum_range_succ _ (m + 1)]
      ring
  intro m hm h0
  obtain ⟨m, rfl⟩ : ∃ m', m = m' + 1 := ⟨m - 1, by omega⟩
  have := (hc.within m hm).1
  rw [hsum m hm] at this
  linarith

end

end Verif.EndToEnd
