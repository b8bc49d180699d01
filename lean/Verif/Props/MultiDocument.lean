import Verif.Lemmas.MultiDocument
import Verif.Props.Document

/-!
# C100: documents of several networks from end to end
-/

namespace Verif.EndToEnd

open Verif.State Verif.Solver Verif.Time Verif.Simulation
open Verif.Params Verif.Kinds
open Verif.Load (Story Side SNum SHolds)
open Verif.Schema (Frag Core UMetric SNode received sent)

theorem forall_get {α β : Type} {R : α → β → Prop} {l : List α} {m : List β} (h : List.Forall₂ R l m) {i : Nat} {a : α} (ha : l[i]? = some a) :
    ∃ b, m[i]? = some b ∧ R a b := by
  obtain ⟨h1, rfl⟩ := List.getElem?_eq_some_iff.1 ha
  have h2 : i < m.length := h.length_eq ▸ h1
  exact ⟨m[i], List.getElem?_eq_getElem h2, h.get h1 h2⟩

/-- What is asked of the networks, for `n` steps: that each is `Fit`, whatever it is given. -/
def MultiDocument.Fits (M : MultiDocument) (n : Nat) : Prop :=
  ∀ P ∈ M.parts, ∀ F C, Schema.Built P.document.numbers P.document.net F C → Fit (M.document P) (M.setting P fun _ => []) F C n

/-- **C100.** A run of a document of several networks that completes: each network does what its own document says, with the values it is given;
what it is given by a link is what the metric of the link shows in the other network, in the same step if that comes earlier and in the step before
if it comes later, except for initial values; the values reported are those of the metrics of metric sets at the end; and they are those that a
run of its document alone reports, with the values it is given. Besides what is left out of
the model, the full statement would not ask for `Fits`, as in `C99_run_partial`. -/
theorem C100_run_partial (M : MultiDocument) (n : Nat) (res : List (List ℚ)) (hr : M.run n = .done res) (hf : M.Fits (n + 1)) :
    ∃ tale : Fin M.parts.length → Tale, Together (n + 1) tale ∧ ∀ b, ∃ qs, res[b.1]? = some qs ∧
      List.Forall₂ ((tale b).Shows M M.parts[b] n) M.parts[b].document.doc.outputs qs ∧
      ∃ w, (M.document M.parts[b]).run (M.setting M.parts[b] (tale b).given) n = .ran (.done w qs) := by
  unfold MultiDocument.run at hr
  split at hr
  · cases hr
  rename_i Rs hrs
  split at hr
  · cases hr
  rename_i entries hbuild
  split at hr
  · cases hr
  rename_i tr htr
  split at hr
  · cases hr
  rename_i res' hres
  obtain rfl := MEnding.done.inj hr
  have hready := ready_list hrs
  have key : ∀ b : Fin M.parts.length, ∃ (R : Ready) (scene : Nat → Scene Val Inner Area) (T : Tale), Rs[b.1]? = some R ∧
      IsReady (M.document M.parts[b]) (M.setting M.parts[b] fun _ => []) R ∧ T.F = R.F ∧ T.C = R.C ∧
      Course M M.parts[b] R b.1 (n + 1) tr scene T.given ∧ T.Of M M.parts[b] (n + 1) ∧
      ∀ t ≤ n, Load.Heard ((M.document M.parts[b]).args (M.setting M.parts[b] T.given) T.F T.C) T.story R.params R.net t (scene (t + 1)) := by
    intro b
    have hP : M.parts[b.1]? = some M.parts[b] := List.getElem?_eq_getElem b.2
    obtain ⟨R, hR, hI⟩ := forall_get hready hP
    obtain ⟨scene, given, hc⟩ := course hbuild htr hP hR hI
    have hbuilt : Schema.Built M.parts[b].document.numbers M.parts[b].document.net R.F R.C := ⟨hI.compiled, hI.built⟩
    have hfit : Fit (M.document M.parts[b]) (M.setting M.parts[b] given) R.F R.C (n + 1) :=
      (hf _ (List.getElem_mem b.2) R.F R.C hbuilt).given given
    obtain ⟨S, told, hall⟩ := Load.story (A := (M.document M.parts[b]).args (M.setting M.parts[b] given) R.F R.C)
      (prepare := start ((M.document M.parts[b]).sim R.F R.C) (M.setting M.parts[b] given))
      (solve := allocate ((M.document M.parts[b]).sim R.F R.C) (M.setting M.parts[b] given)) hfit.apart (fun a b => hfit.codes a b) hI.loaded hI.net
      (hc.run (n + 1) le_rfl)
    obtain ⟨f, st, hh⟩ := happens_of_told hI.built hfit hI.listed hI.initial told
    exact ⟨R, scene, ⟨given, R.F, R.C, S, f, st⟩, hR, hI, rfl, rfl, hc, ⟨hbuilt, hh, hc.length⟩,
      fun t ht => hall t ht _ (hc.run (t + 1) (by omega))⟩
  choose R scene tale hR hI hF hC hcourse hof hheard using key
  have hwf := (Multi.C48_accepts (declsOf [] M.parts Rs)).1 ⟨_, hbuild⟩
  have hlen : (declsOf [] M.parts Rs).length = M.parts.length := declsOf_length _ _ _ hready.length_eq
  have hdecl : ∀ b : Fin M.parts.length, (declsOf [] M.parts Rs)[b.1]? =
      some ⟨M.parts[b].name, R b, transfersOf ((M.parts.take b.1).flatMap Part.links) M.parts[b].links⟩ := fun b => by
    simpa using declsOf_get [] M.parts Rs b.1 M.parts[b] (R b) (List.getElem?_eq_getElem b.2) (hR b)
  refine ⟨tale, ⟨hof, ?_⟩, ?_⟩
  · intro b j l hl
    have hx := transfersOf_get ((M.parts.take b.1).flatMap Part.links) M.parts[b].links j l hl
    have hstarts : (starts M.parts Rs).length = (declsOf [] M.parts Rs).length := by
      rw [hlen]
      simp [starts, ← hready.length_eq]
    have hat : (starts M.parts Rs)[b.1]? = some [⟨(R b).first, List.replicate M.parts[b].links.length 0⟩] := by
      simp [starts, List.getElem?_zipWith, hR b]
    obtain ⟨-, hall⟩ := Multi.C48_run Ready.step step_keeps _ _ hbuild _ _ hstarts tr htr
    have each : ∀ t ≤ n, ∃ a : Fin M.parts.length, a ≠ b ∧ M.parts[a].name = l.source ∧
        ∃ q, ((tale b).given t)[j]? = some q ∧ Linked tale a b l t q := by
      intro t ht
      obtain ⟨s, s', h1, h2, h3⟩ := hall t (by simp; omega)
      obtain ⟨a, dₐ, lₐ, sₐ, l', r, v, ha, hd, hn, hla, hsa, hlb, hr, hv, hdel⟩ := h3 b.1 _ (hdecl b) j _ hx _ hat 0 (by simp)
      have hal : a < M.parts.length := by
        rw [← hlen]
        exact (List.getElem?_eq_some_iff.1 hd).1
      have hd' := hdecl ⟨a, hal⟩
      rw [hd] at hd'
      obtain rfl := Option.some.inj hd'
      have hname : M.parts[a].name = l.source := hn
      -- what is given
      obtain ⟨s₁, h4, h5⟩ := (hcourse b).taken t (by omega)
      rw [h2] at h4
      obtain rfl := Option.some.inj h4
      rw [hlb] at h5
      obtain rfl := Option.some.inj h5
      obtain rfl : (⟨scene b (t + 1), (tale b).given t⟩ : Multi.Scenario _) = r := by simpa using hr
      refine ⟨⟨a, hal⟩, fun h => ha (congrArg Fin.val h), hname, v, hv, ?_, ?_⟩
      · intro v₀ ht0 hini
        subst ht0
        simp only [Multi.Delivers, hini, BEq.rfl, Option.isSome_some, and_self, if_true, Option.some.injEq] at hdel
        exact hdel.symm
      · intro hno
        have hmet : (R ⟨a, hal⟩).value (((M.parts.take b.1).flatMap Part.links ++ M.parts[b].links.take j).filter
            fun k => k.source = l.source).length sₐ = some v := by
          unfold Multi.Delivers at hdel
          rw [if_neg] at hdel
          · exact hdel
          · rintro ⟨h6, h7⟩
            rcases hno with h8 | h8
            · exact h8 (by simpa using h6)
            · simp [h8] at h7
        unfold Ready.value at hmet
        obtain ⟨val, h6, rfl⟩ := Option.map_eq_some_iff.1 hmet
        have h7 := Option.join_eq_some_iff.1 h6
        have hw := wanted_get (M := M) (b := b.1) (P := M.parts[b]) (List.getElem?_eq_getElem b.2) hl
        rw [← hname] at hw h7
        have hlinks := (Load.loaded_of ((hf _ (List.getElem_mem hal) _ _ ⟨(hI ⟨a, hal⟩).compiled, (hI ⟨a, hal⟩).built⟩).apart)
          (fun a' b' => (hf _ (List.getElem_mem hal) _ _ ⟨(hI ⟨a, hal⟩).compiled, (hI ⟨a, hal⟩).built⟩).codes a' b') (hI ⟨a, hal⟩).loaded).links
        have shows : ∀ u ≤ n, sₐ.inner = scene ⟨a, hal⟩ (u + 1) → (tale ⟨a, hal⟩).Shows M M.parts[a] u l.metric val.num := by
          intro u hu hs
          rw [hs] at h7
          refine (hheard ⟨a, hal⟩ u hu).one (M.wanted M.parts[a].name) (R ⟨a, hal⟩).links ?_ _ (hI ⟨a, hal⟩).links _ _ _ hw h7
          have e1 := hF ⟨a, hal⟩
          have e2 := hC ⟨a, hal⟩
          rw [e1, e2]
          exact hlinks
        refine ⟨fun hlt => ?_, fun hlt u hu => ?_⟩
        · have hlt' : a < b.1 := hlt
          rw [if_pos hlt'] at hla
          obtain ⟨s₂, h8, h9⟩ := (hcourse ⟨a, hal⟩).taken t (by omega)
          rw [h2] at h8
          obtain rfl := Option.some.inj h8
          rw [hla] at h9
          obtain rfl := Option.some.inj h9
          obtain rfl : _ = sₐ := by simpa using hsa
          exact shows t ht rfl
        · have hlt' : ¬ a < b.1 := fun h => absurd hlt (not_lt.2 (le_of_lt h))
          rw [if_neg hlt'] at hla
          subst hu
          obtain ⟨s₂, h8, h9⟩ := (hcourse ⟨a, hal⟩).taken u (by omega)
          rw [h1] at h8
          obtain rfl := Option.some.inj h8
          rw [hla] at h9
          obtain rfl := Option.some.inj h9
          obtain rfl : _ = sₐ := by simpa using hsa
          exact shows u (by omega) rfl
    obtain ⟨a, ha, hn, -⟩ := each 0 (by omega)
    refine ⟨a, ha, hn, fun t ht => ?_⟩
    obtain ⟨a', -, hn', h⟩ := each t (by omega)
    have : a' = a := by
      have h1 : ((declsOf [] M.parts Rs).map (·.name))[a'.1]? = ((declsOf [] M.parts Rs).map (·.name))[a.1]? := by
        rw [List.getElem?_map, List.getElem?_map, hdecl a, hdecl a']
        simp only [Option.map_some, hn, hn']
      exact Fin.ext ((List.getElem?_inj (i := a'.1) (by simp [hlen]) hwf.1).1 h1)
    subst this
    exact h
  · intro b
    obtain ⟨s, h1, h2⟩ := (hcourse b).taken n (by omega)
    have hl : tr.getLastD [] = s := by
      have h3 := (trace_steps htr).1
      rw [List.getLastD_eq_getLast?, List.getLast?_eq_getElem?, h3]
      simp [h1]
    rw [hl] at hres
    obtain ⟨qs, h3, h4⟩ := allOf_get hres b.1 (R b, [⟨scene b (n + 1), (tale b).given n⟩]) (by
      simp [List.getElem?_zip_eq_some, hR b, h2])
    refine ⟨qs, h3, ?_⟩
    simp only [resultsOf, Ready.results] at h4
    obtain ⟨xs, h5, rfl⟩ := Option.map_eq_some_iff.1 h4
    have hfit := hf _ (List.getElem_mem b.2) _ _ ⟨(hI b).compiled, (hI b).built⟩
    refine ⟨?_, (scene b (n + 1)).world, ?_⟩
    · refine (hheard b n le_rfl).all _ (R b).outputs ?_ _ (hI b).outputs _ h5
      rw [hF b, hC b]
      exact (Load.loaded_of hfit.apart (fun a' b' => hfit.codes a' b') (hI b).loaded).outputs
    · have hrun := (hcourse b).run (n + 1) le_rfl
      have hl' : (M.document M.parts[b]).doc.loaded ((M.document M.parts[b]).args (M.setting M.parts[b] (tale b).given) (R b).F (R b).C) =
          .ok (((R b).uses, (R b).outputs, (R b).links), (R b).params) := (hI b).loaded
      have hi' : ((M.document M.parts[b]).sim (R b).F (R b).C).initial (M.setting M.parts[b] (tale b).given).big
          (M.setting M.parts[b] (tale b).given).negBig = .ok (R b).state := (hI b).initial
      simp only [Document.run, (hI b).compiled, (hI b).built, (hI b).listed, if_true, hi', Load.Doc.run, hl', (hI b).net, report, (hI b).outputs]
      unfold calcsOf at hrun
      rw [hrun]
      simp only [Option.map_some, h5]

/-! ## Which documents are accepted -/

theorem joined_iff {M : MultiDocument} {Rs : List Ready} (h : M.ready M.parts = .ok Rs) :
    (∃ entries, Multi.build (declsOf [] M.parts Rs) = .ok entries) ↔ M.Joined := by
  have hready := ready_list h
  have hlen : (declsOf [] M.parts Rs).length = M.parts.length := declsOf_length _ _ _ hready.length_eq
  have hdecl : ∀ (b : Nat) P, M.parts[b]? = some P → ∃ R, (declsOf [] M.parts Rs)[b]? =
      some ⟨P.name, R, transfersOf ((M.parts.take b).flatMap Part.links) P.links⟩ := by
    intro b P hP
    obtain ⟨R, hR, -⟩ := forall_get hready hP
    exact ⟨R, by simpa using declsOf_get [] M.parts Rs b P R hP hR⟩
  have hnames : (declsOf [] M.parts Rs).map (·.name) = M.parts.map Part.name := by
    refine List.ext_getElem? fun b => ?_
    rw [List.getElem?_map, List.getElem?_map]
    cases hP : M.parts[b]? with
    | none =>
      have : (declsOf [] M.parts Rs)[b]? = none := by
        rw [List.getElem?_eq_none_iff, hlen]
        exact List.getElem?_eq_none_iff.1 hP
      rw [this]; rfl
    | some P =>
      obtain ⟨R, hR⟩ := hdecl b P hP
      rw [hR]; rfl
  have htn : ∀ before ls, (transfersOf before ls).map (·.name) = ls.map Link.name := fun before ls =>
    transfersOf_map (fun a _ _ => a) before ls
  have htf : ∀ before ls, (transfersOf before ls).map (·.fromModel) = ls.map Link.source := fun before ls =>
    transfersOf_map (fun _ a _ => a) before ls
  rw [Multi.C48_accepts]
  constructor
  · rintro ⟨h1, h2⟩
    have each : ∀ P ∈ M.parts, (P.links.map Link.name).Nodup ∧ ∀ s ∈ P.links.map Link.source, s ∈ M.parts.map Part.name ∧ s ≠ P.name := by
      intro P hP
      obtain ⟨b, hb⟩ := List.mem_iff_getElem?.1 hP
      obtain ⟨R, hR⟩ := hdecl b P hb
      obtain ⟨h3, h4⟩ := h2 _ (List.mem_of_getElem? hR)
      refine ⟨htn _ P.links ▸ h3, fun s hs => ?_⟩
      rw [← htf ((M.parts.take b).flatMap Part.links)] at hs
      obtain ⟨t, ht, rfl⟩ := List.mem_map.1 hs
      have h5 := h4 t ht
      rw [hnames] at h5
      exact h5
    refine ⟨hnames ▸ h1, fun P hP => (each P hP).1, fun P hP l hl => ?_⟩
    obtain ⟨h3, h4⟩ := (each P hP).2 _ (List.mem_map_of_mem hl)
    obtain ⟨Q, hQ, hn⟩ := List.mem_map.1 h3
    exact ⟨h4, Q, hQ, hn⟩
  · intro hj
    refine ⟨hnames ▸ hj.names, fun d hd => ?_⟩
    obtain ⟨b, hb⟩ := List.mem_iff_getElem?.1 hd
    have hbl : b < M.parts.length := hlen ▸ (List.getElem?_eq_some_iff.1 hb).1
    obtain ⟨R, hR⟩ := hdecl b _ (List.getElem?_eq_getElem hbl)
    obtain rfl := Option.some.inj (hb.symm.trans hR)
    refine ⟨(htn _ _).symm ▸ hj.links _ (List.getElem_mem hbl), fun t ht => ?_⟩
    have ht' := List.mem_map_of_mem (f := (·.fromModel)) ht
    rw [htf] at ht'
    obtain ⟨l, hl, he⟩ := List.mem_map.1 ht'
    obtain ⟨h3, Q, hQ, hn⟩ := hj.sources _ (List.getElem_mem hbl) l hl
    rw [hnames, ← he]
    exact ⟨hn ▸ List.mem_map_of_mem hQ, h3⟩

/-- **C100 (links).** Networks that are ready are put together exactly if their names differ, the names of the links to a network differ, and
every link is from another network of the document. -/
theorem C100_accepts (M : MultiDocument) (n : Nat) (h : ∀ e, M.run n ≠ .notReady e) : (∀ e, M.run n ≠ .notLinked e) ↔ M.Joined := by
  cases hrs : M.ready M.parts with
  | error e =>
    refine absurd ?_ (h e)
    simp [MultiDocument.run, hrs]
  | ok Rs =>
    rw [← joined_iff hrs]
    cases hb : Multi.build (declsOf [] M.parts Rs) with
    | error e =>
      refine ⟨fun h1 => absurd ?_ (h1 e), fun h1 => ?_⟩
      · simp [MultiDocument.run, hrs, hb]
      · obtain ⟨_, h1⟩ := h1; cases h1
    | ok es =>
      refine ⟨fun _ => ⟨_, rfl⟩, fun _ e he => ?_⟩
      simp only [MultiDocument.run, hrs, hb] at he
      split at he
      · cases he
      · split at he <;> cases he

theorem joined_of_done {M : MultiDocument} {n : Nat} {res : List (List ℚ)} (h : M.run n = .done res) : M.Joined :=
  (C100_accepts M n (by rw [h]; intro e he; cases he)).1 (by rw [h]; intro e he; cases he)

/-! ## In terms of nodes -/

section
variable {M : MultiDocument} {n : Nat} {tale : Fin M.parts.length → Tale} (T : Together n tale) (J : M.Joined)
  {a b : Fin M.parts.length} {j : Nat} {l : Link} (hl : M.parts[b].links[j]? = some l) (ha : M.parts[a].name = l.source)
include T J hl ha

theorem linked (t : Nat) (ht : t < n) : a ≠ b ∧ ∃ q, ((tale b).given t)[j]? = some q ∧ Linked tale a b l t q := by
  obtain ⟨a', hne, hn, h⟩ := T.links b j l hl
  have : a' = a := by
    refine Fin.ext ((List.getElem?_inj (i := a'.1) (l := M.parts.map Part.name) (by simp) J.names).1 ?_)
    have e1 : M.parts[a'.1]? = some M.parts[a'] := List.getElem?_eq_getElem a'.2
    have e2 : M.parts[a.1]? = some M.parts[a] := List.getElem?_eq_getElem a.2
    rw [List.getElem?_map, List.getElem?_map, e1, e2, Option.map_some, Option.map_some, hn, ha]
  subst this
  exact ⟨hne, h t ht⟩

omit ha in
/-- What a metric about a link shows. -/
theorem shows_link {r : String} (hr : M.parts[b].document.refs r = .transfer l.name) {t : Nat} (ht : t < n) (side : Side) (o : Option String) (q : ℚ) :
    SNum ((M.document M.parts[b]).args (M.setting M.parts[b] (tale b).given) (tale b).F (tale b).C) (tale b).story side t o (.component r) q ↔
      ((tale b).given t)[j]? = some q :=
  (T.each b).happens.transfers t ht r l.name hr (J.links _ (List.getElem_mem b.2)) j (by simp only [MultiDocument.setting, List.getElem?_map]; exact congrArg (Option.map Link.name) hl) side o q

omit ha in
/-- A catchment whose flow is a link sends what the link brings. -/
theorem sends_link {x : SNode} (hx : x ∈ M.parts[b].document.net.nodes) {c : Schema.CatchmentN} (hc : x.body = .catchment c) {id : Nat}
    (hm : c.flow = some (.dyn id)) {o : Option String} {r : String} (hu : M.parts[b].document.doc.uses[id]? = some (o, .component r))
    (hr : M.parts[b].document.refs r = .transfer l.name) {t : Nat} (ht : t < n) :
    ((tale b).given t)[j]? = some (sent M.parts[b].document.net (tale b).F ((tale b).flow t) x.name) := by
  obtain ⟨o', m, h1, h2⟩ := C99_catchment (D := M.document M.parts[b]) (T.each b).built (T.each b).happens hx hc hm t ht
  have h1' : M.parts[b].document.doc.uses[id]? = some (o', m) := h1
  rw [hu] at h1'
  obtain ⟨rfl, rfl⟩ := Prod.mk.inj (Option.some.inj h1')
  exact (shows_link T J hl hr ht _ _ _).1 h2

/-- **C100 (flows).** If the flow of a catchment of a network is a link whose metric is the inflow of a node of another, then what the catchment sends
is what that node receives: in the same step if its network comes earlier in the document, and in the step before if it comes later. In the first step
it is the initial value of the link, if there is one. -/
theorem C100_flows {x y : SNode} (hx : x ∈ M.parts[b].document.net.nodes) {c : Schema.CatchmentN} (hc : x.body = .catchment c) {id : Nat}
    (hm : c.flow = some (.dyn id)) {o : Option String} {r : String} (hu : M.parts[b].document.doc.uses[id]? = some (o, .component r))
    (hr : M.parts[b].document.refs r = .transfer l.name)
    (hy : y ∈ M.parts[a].document.net.nodes) {u : UMetric} (hyu : y.metric (some .inflow) = .ok u)
    {r' : String} (hmet : l.metric = .component r') (hr' : M.parts[a].document.refs r' = .node y.name (some .inflow))
    (t : Nat) (ht : t < n) :
    (∀ v, t = 0 → l.initial = some v → sent M.parts[b].document.net (tale b).F ((tale b).flow t) x.name = v) ∧
    (a < b → t ≠ 0 ∨ l.initial = none → sent M.parts[b].document.net (tale b).F ((tale b).flow t) x.name =
      received M.parts[a].document.net (tale a).F ((tale a).flow t) y.name) ∧
    (b < a → ∀ s, t = s + 1 → sent M.parts[b].document.net (tale b).F ((tale b).flow t) x.name =
      received M.parts[a].document.net (tale a).F ((tale a).flow s) y.name) := by
  obtain ⟨-, q, h1, h2, h3⟩ := linked T J hl ha t ht
  have h4 := sends_link T J hl hx hc hm hu hr ht
  obtain rfl := Option.some.inj (h4.symm.trans h1)
  have shows : ∀ s < n, (tale a).Shows M M.parts[a] s l.metric (sent M.parts[b].document.net (tale b).F ((tale b).flow t) x.name) →
      sent M.parts[b].document.net (tale b).F ((tale b).flow t) x.name = received M.parts[a].document.net (tale a).F ((tale a).flow s) y.name := by
    intro s hs h
    unfold Tale.Shows at h
    rw [hmet] at h
    exact (C99_inflow (D := M.document M.parts[a]) (T.each a).built (T.each a).happens hy (r := r') hr' hyu s hs none _).1.1 h
  refine ⟨fun v h5 h6 => h2 v h5 h6, fun hlt hno => shows t ht ((h3 hno).1 hlt), fun hlt s hs => ?_⟩
  exact shows s (by omega) ((h3 (Or.inl (by omega))).2 hlt s hs)

/-- **C100 (passing on).** A link whose metric is itself a link brings what that brings: in the same step, or in the step before. A comment in the
code (`pywr-schema/src/model.rs:929`) says that such links are refused. -/
theorem C100_passed {k : Nat} {l' : Link} (hk : M.parts[a].links[k]? = some l') {r : String} (hmet : l.metric = .component r)
    (hr : M.parts[a].document.refs r = .transfer l'.name) (t : Nat) (ht : t < n) (hno : t ≠ 0 ∨ l.initial = none) :
    (a < b → ((tale b).given t)[j]? = ((tale a).given t)[k]?) ∧
    (b < a → ∀ s, t = s + 1 → ((tale b).given t)[j]? = ((tale a).given s)[k]?) := by
  obtain ⟨-, q, h1, -, h3⟩ := linked T J hl ha t ht
  have shows : ∀ s < n, (tale a).Shows M M.parts[a] s l.metric q → ((tale b).given t)[j]? = ((tale a).given s)[k]? := by
    intro s hs h
    unfold Tale.Shows at h
    rw [hmet] at h
    rw [(shows_link T J hk hr hs .late none q).1 h, h1]
  exact ⟨fun hlt => shows t ht ((h3 hno).1 hlt), fun hlt s hs => shows s (by omega) ((h3 hno).2 hlt s hs)⟩

end

end Verif.EndToEnd
