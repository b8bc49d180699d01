import Verif.Lemmas.RenameLoad
import Verif.Props.Rename

/-!
# C101: renaming nodes in documents with parameters
-/

namespace Verif.Rename

open Verif.Load Verif.Kinds Verif.Params Verif.EndToEnd Verif.Simulation
open Verif.Schema (Net ParamNo Frag Core UMetric)

section docs
variable {W W' : Type} {φ : W → W'}

theorem pull_pick (ids : List Nat) (ss : List (Source W')) :
    pick ids (ss.map (Source.pull φ)) = (pick ids ss).map fun p => (p.1, p.2.pull φ) := by
  simp only [pick, List.map_filterMap, List.getElem?_map, Option.map_map]
  rfl

variable {ρ : String → String} {names : List String} {A : Args W} {A' : Args W'}

theorem run_doc (H : Alike ρ names φ A A') (hρ : Function.Injective ρ) (D : Doc) (hD : ∀ n ∈ D.nodes ++ D.virtuals, n.name ∈ names)
    (ids : List Nat) {prepare : Nat → W → List (Nat × ℚ) → Option W} {prepare' : Nat → W' → List (Nat × ℚ) → Option W'}
    (hp : ∀ t w xs, prepare' t (φ w) xs = (prepare t w xs).map φ) {solve : Nat → W → List ℚ → Option W} {solve' : Nat → W' → List ℚ → Option W'}
    (hs : ∀ t w xs, solve' t (φ w) xs = (solve t w xs).map φ) (w : W) (n : Nat) :
    (∃ e e', D.run A ids prepare solve w n = .notLoaded e ∧ (docOf ρ D).run A' ids prepare' solve' (φ w) n = .notLoaded e') ∨
    (D.run A ids prepare solve w n = .notBuilt ∧ (docOf ρ D).run A' ids prepare' solve' (φ w) n = .notBuilt) ∨
    (D.run A ids prepare solve w n = .failed ∧ (docOf ρ D).run A' ids prepare' solve' (φ w) n = .failed) ∨
    ∃ w' qs, D.run A ids prepare solve w n = .done w' qs ∧ (docOf ρ D).run A' ids prepare' solve' (φ w) n = .done (φ w') qs := by
  have hl := load_doc H hρ D hD []
  unfold Doc.run Doc.loaded
  cases h1 : D.load A [] with
  | error e =>
    cases h2 : (docOf ρ D).load A' [] with
    | error e' => exact .inl ⟨e, e', rfl, rfl⟩
    | ok p => rw [List.map_nil, h1, h2] at hl; cases hl
  | ok p =>
    cases h2 : (docOf ρ D).load A' [] with
    | error e' => rw [List.map_nil, h1, h2] at hl; cases hl
    | ok p' =>
      rw [List.map_nil, h1, h2] at hl
      obtain ⟨⟨ss', os', ls'⟩, ps'⟩ := p'
      simp only [Except.toOption, Option.map_some, Option.some.injEq, pulled] at hl
      subst hl
      refine .inr ?_
      have e1 : refsOf ((pick ids (ss'.map (Source.pull φ))).map Prod.snd) = refsOf ((pick ids ss').map Prod.snd) := by
        rw [pull_pick]
        simp only [refsOf, List.map_map, Function.comp_def, pull_ref]
      have e2 : ∀ ss : List (Source W'), refsOf (ss.map (Source.pull φ)) = refsOf ss := fun ss => pull_refs φ ss
      have e3 : A'.env = A.env := by simp only [Args.env, H.time, H.fmax]
      simp only [List.length_map, pull_builders, e1, e2, e3]
      cases buildNetwork (ps'.length + 1) (builders ps') (refsOf ((pick ids ss').map Prod.snd)) (refsOf ss') with
      | none => exact .inl ⟨rfl, rfl⟩
      | some net =>
        have hk := calcs_alike φ A.env ps' (nodes := preparing prepare (pick ids (ss'.map (Source.pull φ))))
          (nodes' := preparing prepare' (pick ids ss')) (solve := solving solve (ss'.map (Source.pull φ))) (solve' := solving solve' ss')
          (by
            intro t w vs
            simp only [preparing, pull_pick, List.map_map]
            have : fetch none ((pick ids ss').map (Prod.snd ∘ fun p => (p.1, p.2.pull φ))) vs = fetch none ((pick ids ss').map Prod.snd) vs := by
              rw [show (pick ids ss').map (Prod.snd ∘ fun p => (p.1, p.2.pull φ)) = ((pick ids ss').map Prod.snd).map (Source.pull φ) by
                rw [List.map_map]; rfl, pull_fetch]
              rfl
            rw [this]
            cases collect (fetch none ((pick ids ss').map Prod.snd) vs) with
            | none => rfl
            | some xs => exact hp _ _ _)
          (by
            intro t w vs
            simp only [solving, pull_fetch, Option.map_some]
            cases collect (fetch (some (φ w)) ss' vs) with
            | none => rfl
            | some xs => exact hs _ _ _)
        simp only [report_alike hk]
        cases report (calcs A.env (ps'.map (Param.pull φ)) (preparing prepare (pick ids (ss'.map (Source.pull φ))))
            (solving solve (ss'.map (Source.pull φ)))) net w (refsOf os') n with
        | none => exact .inl ⟨rfl, rfl⟩
        | some o =>
          cases o with
          | none => exact .inr (.inl ⟨rfl, rfl⟩)
          | some p =>
            obtain ⟨w', vs⟩ := p
            simp only [Option.map_some, pull_fetch]
            cases collect (fetch (some (φ w')) os' vs) with
            | none => exact .inr (.inl ⟨rfl, rfl⟩)
            | some xs => exact .inr (.inr ⟨w', _, rfl, rfl⟩)

end docs

variable {ρ : String → String}

/-- A network that is run, under new names. -/
def area (ρ : String → String) (w : Area) : Area := ⟨⟨sim ρ w.world.sim, w.world.state, w.world.bounds, w.world.limits⟩, w.given⟩

theorem area_same (w : Area) : SameArea ρ w (area ρ w) := ⟨rfl, rfl, rfl, rfl, rfl⟩

theorem get_rename (w : Area) (c : Coupled.Comp) : (area ρ w).world.get c = w.world.get c := by
  cases c <;> simp only [Coupled.World.get, area, stateNet_rename] <;> rfl

theorem start_rename (S : Sim) (E E' : Setting) (hE : E' = { E with code := E'.code }) (t : Nat) (w : Area) (xs : List (Nat × ℚ)) :
    start (sim ρ S) E' t (area ρ w) xs = (start S E t w xs).map (area ρ) := by
  have hp : ∀ inp b n, (sim ρ S).pre inp b n = S.pre inp b n := fun inp b n => by
    simp only [Sim.pre, stateNet_rename]; rfl
  rw [hE]
  simp only [start, bounds_rename, hp]
  cases S.bounds (known xs) <;> rfl

theorem allocate_rename (S : Sim) (E E' : Setting) (hE : E' = { E with code := E'.code }) (t : Nat) (w : Area) (qs : List ℚ) :
    allocate (sim ρ S) E' t (area ρ w) qs = (allocate S E t w qs).map (area ρ) := by
  have hs : ∀ b st, Solver.step (sim ρ S).model b st = Solver.step S.model b st := fun b st => step_rename S.model b st
  have ht : ∀ inp b n, (sim ρ S).stepState inp b n = S.stepState inp b n := fun _ _ _ => rfl
  rw [hE]
  simp only [allocate, hs, ht, stateNet_rename]
  rw [show (area ρ w).world.state = w.world.state from rfl, show (area ρ w).world.bounds = w.world.bounds from rfl]
  cases Solver.step S.model w.world.state.solver (S.stepState ⟨E.time t, fun id => qs[id]?, E.solver t⟩ w.world.bounds w.world.state.network) with
  | error e => rfl
  | ok s' =>
    simp only
    cases E.solver t s'.lp with
    | none => rfl
    | some x =>
      simp only
      cases State.applySolution S.stateNet w.world.bounds (E.time t) (colFlow s' x) w.world.state.network with
      | error e => rfl
      | ok n =>
        have hm : Coupled.maxFlows (sim ρ S) = Coupled.maxFlows S := by
          funext σ i
          simp only [Coupled.maxFlows, stateNet_rename]
          rfl
        simp only [hm]
        rfl

theorem targetOf_eq (t : Target) : targetOf ρ t = target ρ t := by cases t <;> rfl

theorem metric_owner {n : Schema.SNode} {a : Option Schema.Attr} {x p : String} (h : n.metric a = .ok (.parameter x p)) : x = n.name := by
  obtain ⟨nm, body, ps⟩ := n
  revert h
  unfold Schema.SNode.metric Schema.storageMetric
  cases body <;> simp only <;> (repeat' split) <;> intro h <;> first | (cases h; done) | (cases h; rfl)

theorem target_owner {D : Document} {t : Target} {x p : String} (hm : ∀ x p, t = .made (.parameter x p) → x ∈ owners D)
    (h : t.metric D.net = .ok (.parameter x p)) : x ∈ owners D := by
  cases t with
  | node y a =>
    simp only [Target.metric, Schema.Net.node?] at h
    cases hf : D.net.nodes.find? (fun n => decide (n.name = y)) with
    | none => rw [hf] at h; cases h
    | some n =>
      rw [hf] at h
      rw [metric_owner h]
      exact List.mem_append_left _ (List.mem_map_of_mem (List.mem_of_find?_eq_some hf))
  | edge e =>
    simp only [Target.metric, Schema.Net.edgeMetric] at h
    cases hp : D.net.pairs e with
    | error e => rw [hp] at h; cases h
    | ok ps => rw [hp] at h; cases h
  | made u =>
    obtain rfl := Except.ok.inj h
    exact hm x p rfl
  | transfer y => cases h
  | «virtual» y a => cases h

theorem found_rename (hρ : Function.Injective ρ) (D : Document) (F : Frag) (C : Core) (u : UMetric)
    (hu : ∀ x p, u = .parameter x p → x ∈ owners D) :
    (∃ e e', found F C u = .error e ∧ found (frag ρ F) (core ρ C) (metric ρ u) = .error e') ∨
    (∃ f f', found F C u = .ok (.shown f) ∧ found (frag ρ F) (core ρ C) (metric ρ u) = .ok (.shown f') ∧ ∀ w, f' (area ρ w) = f w) ∨
    ∃ x f f' l l', x ∈ owners D ∧ found F C u = .ok (.deficit x f l) ∧
      found (frag ρ F) (core ρ C) (metric ρ u) = .ok (.deficit (ρ x) f' l') ∧ (∀ w, f' (area ρ w) = f w) ∧ ∀ w, l' (area ρ w) = l w := by
  have hp := place_rename hρ F C u
  cases u with
  | const q => exact .inr (.inl ⟨_, _, rfl, rfl, fun _ => rfl⟩)
  | parameter x p =>
    have hn := nodeAt_rename hρ F (x, none)
    simp only [found, metric, show ((ρ x, none) : Topology.Name) = nm ρ (x, none) from rfl, hn]
    cases nodeAt F (x, none) with
    | none => exact .inl ⟨_, _, rfl, rfl⟩
    | some i =>
      simp only
      by_cases hd : p = "deficit"
      · simp only [hd, if_true]
        exact .inr (.inr ⟨x, _, _, _, _, hu x p rfl, rfl, rfl, fun w => get_rename w _, fun w => get_rename w _⟩)
      · simp only [hd, if_false]
        exact .inl ⟨_, _, rfl, rfl⟩
  | _ =>
    simp only [metric] at hp ⊢
    simp only [found, hp]
    split
    · exact .inr (.inl ⟨_, _, rfl, rfl, fun w => get_rename w _⟩)
    · exact .inl ⟨_, _, rfl, rfl⟩

/-- What a metric of a node or an edge reads. -/
def seen (N : Net) (F : Frag) (C : Core) (r : String) (t : Target) : Except Load.Err (Load.Found Area) :=
  match t.metric N with
  | .error _ => .error (.nodeNotFound r)
  | .ok u => found F C u

theorem seen_rename (hρ : Function.Injective ρ) (D : Document) (F : Frag) (C : Core) (r : String) (t : Target)
    (hm : ∀ x p, t = .made (.parameter x p) → x ∈ owners D) :
    (∃ e e', seen D.net F C r t = .error e ∧ seen (net ρ D.net) (frag ρ F) (core ρ C) r (targetOf ρ t) = .error e') ∨
    (∃ f f', seen D.net F C r t = .ok (.shown f) ∧
      seen (net ρ D.net) (frag ρ F) (core ρ C) r (targetOf ρ t) = .ok (.shown f') ∧ ∀ w, f' (area ρ w) = f w) ∨
    ∃ x f f' l l', x ∈ owners D ∧ seen D.net F C r t = .ok (.deficit x f l) ∧
      seen (net ρ D.net) (frag ρ F) (core ρ C) r (targetOf ρ t) = .ok (.deficit (ρ x) f' l') ∧ (∀ w, f' (area ρ w) = f w) ∧
      ∀ w, l' (area ρ w) = l w := by
  have h := target_metric_rename hρ D.net t
  rw [targetOf_eq]
  unfold seen
  cases h1 : t.metric D.net <;> cases h2 : (target ρ t).metric (net ρ D.net) <;>
    simp only [h1, h2, Except.toOption, Option.map_none, Option.map_some, reduceCtorEq, Option.some.injEq] at h
  · exact .inl ⟨_, _, rfl, rfl⟩
  · subst h
    rename_i u
    exact found_rename hρ D F C u fun x p hu => target_owner hm (hu ▸ h1)

theorem args_alike (hρ : Function.Injective ρ) (D : Document) {P' : ParamNo} (E E' : Setting) (hE : SameSetting ρ D E E')
    (hm : ∀ r x p, D.refs r = .made (.parameter x p) → x ∈ owners D) (F : Frag) (C : Core) :
    Alike ρ (owners D) (area ρ) (D.args E F C) ((document ρ P' D).args E' (frag ρ F) (core ρ C)) := by
  have hr := hE.rest
  constructor
  · exact hE.codes.locals
  · exact hE.codes.globals
  · exact hE.codes.series
  · exact hE.codes.thresholds
  · intro r
    have ht : E'.transfers = E.transfers := by rw [hr]
    simp only [Document.args, document, ht]
    have hmr := hm r
    cases hd : D.refs r with
    | transfer x =>
      simp only [targetOf]
      cases E.transfers.findIdx? (fun y => decide (y = x)) with
      | none => exact .inl ⟨_, _, rfl, rfl⟩
      | some k => exact .inr (.inl ⟨_, _, rfl, rfl, fun _ => rfl⟩)
    | «virtual» x a =>
      simp only [targetOf, virtual_find_rename hρ]
      cases D.net.virtualNodes.find? (fun v => decide (v.name = x)) with
      | none => exact .inl ⟨_, _, rfl, rfl⟩
      | some v =>
        have hv := virtualMetric_rename (ρ := ρ) v a
        simp only [Option.map_some]
        cases h1 : virtualMetric v a <;> cases h2 : virtualMetric (vnode ρ v) a <;>
          simp only [h1, h2, Except.toOption, Option.map_none, Option.map_some, reduceCtorEq, Option.some.injEq] at hv
        · exact .inl ⟨_, _, rfl, rfl⟩
        · subst hv
          simp only [vplace_rename hρ]
          cases VMetric.place F C _ with
          | none => exact .inl ⟨_, _, rfl, rfl⟩
          | some c => exact .inr (.inl ⟨_, _, rfl, rfl, fun w => get_rename w _⟩)
    | node y a => exact seen_rename hρ D F C r (.node y a) fun x p h => by cases h
    | edge e => exact seen_rename hρ D F C r (.edge e) fun x p h => by cases h
    | made u => exact seen_rename hρ D F C r (.made u) fun x p h => hmr x p (hd.trans h)
  · intro n w; rfl
  · rw [hr]; rfl
  · rw [hr]; rfl
  · rw [hr]; rfl
  · rw [hr]; rfl
  · rw [hr]; rfl
  · rw [hr]; rfl
  · rfl

/-- **C101 (documents).** A document with parameters in which nodes are renamed runs as before: it is accepted if it was, its network is
the same in each step but for names, and its metric sets have the same values. -/
theorem C101_document_partial (hρ : Function.Injective ρ) (D : Document) {P' : ParamNo} (hP : SameNumbers ρ D.numbers P') (E E' : Setting)
    (hE : SameSetting ρ D E E') (hm : ∀ r x p, D.refs r = .made (.parameter x p) → x ∈ owners D) (n : Nat) :
    SameEnding ρ (D.run E n) ((document ρ P' D).run E' n) := by
  have hr := hE.rest
  have hc := C101_compiles hρ hP D.net
  unfold Document.run
  rw [show (document ρ P' D).net = net ρ D.net from rfl, show (document ρ P' D).numbers = P' from rfl]
  cases h1 : D.net.compile D.numbers <;> cases h2 : (net ρ D.net).compile P' <;>
    simp only [h1, h2, Except.toOption, Option.map_none, Option.map_some, reduceCtorEq, Option.some.injEq] at hc ⊢
  · exact .notCompiled _ _
  subst hc
  rename_i F
  have hb := C101_built hρ F
  cases h3 : F.build <;> cases h4 : (frag ρ F).build <;>
    simp only [h3, h4, Except.toOption, Option.map_none, Option.map_some, reduceCtorEq, Option.some.injEq] at hb ⊢
  · exact .notBuilt _ _
  subst hb
  rename_i C
  have hl : (document ρ P' D).listed (frag ρ F) = D.listed F := by
    simp only [Document.listed, document, docOf, frag, List.all_map, ← List.map_append, List.map_map]
    rfl
  have hi : (fun (σ : Nat → Option ℚ) (i : Nat) => volumeOf σ (((frag ρ F).nodes[i]?).bind (·.initial))) =
      fun (σ : Nat → Option ℚ) (i : Nat) => volumeOf σ ((F.nodes[i]?).bind (·.initial)) := by
    funext σ i
    simp only [frag, List.getElem?_map]
    cases F.nodes[i]? <;> rfl
  have hs : (document ρ P' D).sim (frag ρ F) (core ρ C) = sim ρ (D.sim F C) := by
    simp only [Document.sim, sim, core, document, hi]
  have hv : volumeIds (frag ρ F) = volumeIds F := by
    simp only [volumeIds, frag, List.flatMap_map]
  rw [hl, hs, initial_rename, hv, show E'.big = E.big by rw [hr], show E'.negBig = E.negBig by rw [hr]]
  split
  · cases (D.sim F C).initial E.big E.negBig with
    | error e => exact .noSolver e
    | ok s =>
      have hbl : blank (sim ρ (D.sim F C)) E' s = area ρ (blank (D.sim F C) E s) := by
        rw [hr]; rfl
      simp only [hbl]
      rcases run_doc (args_alike hρ D (P' := P') E E' hE hm F C) hρ D.doc
        (fun n hn => List.mem_append_right _ (List.mem_map_of_mem hn)) (volumeIds F) (prepare := start (D.sim F C) E) (prepare' := start (sim ρ (D.sim F C)) E')
        (fun t w xs => start_rename _ E E' hr t w xs) (solve := allocate (D.sim F C) E) (solve' := allocate (sim ρ (D.sim F C)) E')
        (fun t w xs => allocate_rename _ E E' hr t w xs) (blank (D.sim F C) E s) n with
        ⟨e, e', ha, hb⟩ | ⟨ha, hb⟩ | ⟨ha, hb⟩ | ⟨w', qs, ha, hb⟩ <;>
      rw [ha, show (document ρ P' D).doc = docOf ρ D.doc from rfl, hb]
      · exact .notLoaded e e'
      · exact .unresolved
      · exact .failed
      · exact .done qs (area_same w')
  · exact .leftOut

/-! ## Renaming one node -/

/-- Parameters of the node are numbered by its new name as they were by its old one. -/
def recode (a b : String) (E : Setting) : Setting :=
  { E with code := fun p => E.code (if p.sub = none then { p with parent := p.parent.map (swap a b) } else p) }

theorem recode_same (a b : String) (D : Document) (E : Setting) (ha : E.series a = none) (hb : E.series b = none) :
    SameSetting (swap a b) D E (recode a b E) := by
  have hs : ∀ x, swap a b (swap a b x) = x := by
    intro x
    unfold swap
    grind
  refine ⟨⟨fun p x _ => ?_, fun p => rfl, fun s h c => ?_, fun p => rfl⟩, rfl⟩
  · simp only [recode, if_true, Option.map_some, hs]
  · have h1 : s ≠ a := fun e => h (e ▸ ha)
    have h2 : s ≠ b := fun e => h (e ▸ hb)
    simp only [recode, if_true, Option.map_some, swap, h1, h2, if_false]

/-- Codes that tell names apart still do. -/
theorem recode_injective (a b : String) (E : Setting) (h : Function.Injective E.code) : Function.Injective (recode a b E).code := by
  intro p q e
  have e := h e
  obtain ⟨n, s, o⟩ := p
  obtain ⟨m, t, u⟩ := q
  cases s <;> cases t <;> simp only [if_true, reduceCtorEq, if_false, Load.PName.mk.injEq, true_and, false_and, and_false] at e ⊢
  · exact ⟨e.1, Option.map_injective (swap_inj a b) e.2⟩
  · exact e

/-- **C101 (documents), one node.** In a document with parameters, the node `a` gets the name `b` and the other way round, where neither
is the name of a series: the run is the same. -/
theorem C101_document_one_partial (a b : String) (D : Document) (E : Setting) (ha : E.series a = none) (hb : E.series b = none)
    (hm : ∀ r x p, D.refs r = .made (.parameter x p) → x ∈ owners D) (n : Nat) :
    SameEnding (swap a b) (D.run E n) ((document (swap a b) (fun x => D.numbers (swap a b x)) D).run (recode a b E) n) :=
  C101_document_partial (swap_inj a b) D (fun x p k => by
    have hs : swap a b (swap a b x) = x := by
      unfold swap
      grind
    simp only [hs]) E _ (recode_same a b D E ha hb) hm n

end Verif.Rename
