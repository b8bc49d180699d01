import Verif.Lemmas.Worlds
import Verif.Spec.RenameDocument
import Mathlib.Data.List.Nodup

/-!
# Loading a renamed document
-/

namespace Verif.Rename

open Verif.Load Verif.Kinds Verif.Params

variable {W W' : Type}

/-- Actions in corresponding worlds. -/
def Rel (φ : W → W') {α α' : Type} (r : α' → α) (m : Step W α) (m' : Step W' α') : Prop :=
  ∀ added, (m (added.map (Param.pull φ))).toOption = (m' added).toOption.map fun p => (r p.1, p.2.map (Param.pull φ))

variable {φ : W → W'}

theorem Rel.pure {α α' : Type} {r : α' → α} (a' : α') : Rel φ r (Pure.pure (r a')) (Pure.pure a') := fun _ => rfl

theorem Rel.pure_of {α α' : Type} {r : α' → α} {a : α} {a' : α'} (h : a = r a') : Rel φ r (Pure.pure a) (Pure.pure a') := h ▸ Rel.pure a'

theorem Rel.fail {α α' : Type} {r : α' → α} (e e' : Err) : Rel φ r (fail e) (fail e') := fun _ => rfl

theorem Rel.bindP {α α' β β' : Type} {r : α' → α} {s : β' → β} {m : Step W α} {m' : Step W' α'} {f : α → Step W β} {f' : α' → Step W' β'}
    {P : α' → Prop} (h : Rel φ r m m') (hp : ∀ added p, m' added = .ok p → P p.1) (hf : ∀ a', P a' → Rel φ s (f (r a')) (f' a')) :
    Rel φ s (m >>= f) (m' >>= f') := by
  intro added
  have h1 := h added
  show (Step.bind m f _).toOption = (Step.bind m' f' _).toOption.map _
  unfold Step.bind
  cases hm : m (added.map (Param.pull φ)) with
  | error e =>
    cases hm' : m' added with
    | error e' => rfl
    | ok p => rw [hm, hm'] at h1; cases h1
  | ok p =>
    cases hm' : m' added with
    | error e' => rw [hm, hm'] at h1; cases h1
    | ok p' =>
      rw [hm, hm'] at h1
      have h2 := hp _ _ hm'
      obtain ⟨a, ad⟩ := p
      obtain ⟨a', ad'⟩ := p'
      simp only [Except.toOption, Option.map_some, Option.some.injEq, Prod.mk.injEq] at h1
      obtain ⟨rfl, rfl⟩ := h1
      exact hf a' h2 ad'

theorem Rel.bind {α α' β β' : Type} {r : α' → α} {s : β' → β} {m : Step W α} {m' : Step W' α'} {f : α → Step W β} {f' : α' → Step W' β'}
    (h : Rel φ r m m') (hf : ∀ a', Rel φ s (f (r a')) (f' a')) : Rel φ s (m >>= f) (m' >>= f') :=
  Rel.bindP (P := fun _ => True) h (fun _ _ _ => trivial) fun a' _ => hf a'

theorem Rel.need {α : Type} (e e' : Err) (o : Option α) : Rel φ id (need e o) (need e' o) := by
  cases o with
  | none => exact Rel.fail _ _
  | some a => exact Rel.pure (r := id) a

theorem Rel.ite {α α' : Type} {r : α' → α} {c : Prop} [Decidable c] {m n : Step W α} {m' n' : Step W' α'} (h1 : Rel φ r m m') (h2 : Rel φ r n n') :
    Rel φ r (if c then m else n) (if c then m' else n') := by
  split
  · exact h1
  · exact h2

theorem Rel.each {α β β' γ : Type} {r : β' → β} {f : α → Step W β} {f' : γ → Step W' β'} {g : α → γ} (l : List α)
    (h : ∀ a ∈ l, Rel φ r (f a) (f' (g a))) : Rel φ (List.map r) (each f l) (each f' (l.map g)) := by
  induction l with
  | nil => exact Rel.pure (r := List.map r) []
  | cons a l ih =>
    exact Rel.bind (h a List.mem_cons_self) fun b => Rel.bind (ih fun x hx => h x (List.mem_cons_of_mem _ hx)) fun bs =>
      Rel.pure (r := List.map r) (b :: bs)

theorem Rel.each_same {α β β' : Type} {r : β' → β} {f : α → Step W β} {f' : α → Step W' β'} (l : List α)
    (h : ∀ a ∈ l, Rel φ r (f a) (f' a)) : Rel φ (List.map r) (Load.each f l) (Load.each f' l) := by
  have := Rel.each (g := id) l h
  rwa [List.map_id] at this

/-- What is there when corresponding documents are loaded; `names` are the nodes. -/
structure Alike (ρ : String → String) (names : List String) (φ : W → W') (A : Args W) (A' : Args W') : Prop where
  locals : ∀ p, ∀ x ∈ names, A'.code (named p (some (ρ x))) = A.code (named p (some x))
  globals : ∀ p, A'.code (named p none) = A.code (named p none)
  seriesCodes : ∀ s, A.series s ≠ none → ∀ c, A'.code (named c (some s)) = A.code (named c (some s))
  thresholds : ∀ p, A'.code ⟨p, some "threshold", some p⟩ = A.code ⟨p, some "threshold", some p⟩
  comp : ∀ r, (∃ e e', A.comp r = .error e ∧ A'.comp r = .error e') ∨
    (∃ f f', A.comp r = .ok (.shown f) ∧ A'.comp r = .ok (.shown f') ∧ ∀ w, f' (φ w) = f w) ∨
    ∃ x f f' l l', x ∈ names ∧ A.comp r = .ok (.deficit x f l) ∧ A'.comp r = .ok (.deficit (ρ x) f' l') ∧ (∀ w, f' (φ w) = f w) ∧
      ∀ w, l' (φ w) = l w
  transfer : ∀ n w, A'.transfer n (φ w) = A.transfer n w
  table : A'.table = A.table
  tableIndex : A'.tableIndex = A.tableIndex
  tableList : A'.tableList = A.tableList
  series : A'.series = A.series
  scenario : A'.scenario = A.scenario
  time : A'.time = A.time
  fmax : A'.fmax = A.fmax

variable {ρ : String → String} {names : List String} {A : Args W} {A' : Args W'} (H : Alike ρ names φ A A')

theorem Rel.push {n n' : PName} {k : Kind W} {k' : Kind W'} (hn : A'.code n' = A.code n) (hk : k = k'.over (Source.pull φ)) :
    Rel φ id (push A n k) (push A' n' k') := by
  intro added
  simp only [Load.push, Except.toOption, Option.map_some, List.map_append, List.map_cons, List.map_nil, id, hk, Param.pull, hn]

theorem Rel.pushNew {n n' : PName} {k : Kind W} {k' : Kind W'} (hn : A'.code n' = A.code n) (hk : k = k'.over (Source.pull φ)) :
    Rel φ id (pushNew A n k) (pushNew A' n' k') := by
  intro added
  simp only [Load.pushNew]
  have : ((added.map (Param.pull φ)).any fun p => decide (p.name = A.code n)) = added.any fun p => decide (p.name = A'.code n') := by
    rw [List.any_map, hn]
    rfl
  rw [this]
  split
  · rfl
  · simp only [Except.toOption, Option.map_some, List.map_append, List.map_cons, List.map_nil, id, hk, Param.pull, hn]

/-- The name of a parameter of a node, or of none. -/
def Owned (names : List String) : Option String → Prop
  | none => True
  | some x => x ∈ names

include H

theorem Alike.code {o : Option String} (ho : Owned names o) (p : String) : A'.code (named p (o.map ρ)) = A.code (named p o) := by
  cases o with
  | none => exact H.globals p
  | some x => exact H.locals p x ho

theorem load_column (s : String) (hs : A.series s ≠ none) (cols : List (String × List ℚ)) (c : String) :
    Rel φ id (loadColumn A s cols c) (loadColumn A' s cols c) :=
  Rel.bind (r := id) (Rel.need _ _ _) fun _ => Rel.bind (Rel.pushNew (H.seriesCodes s hs c) rfl) fun _ => Rel.pure (r := id) _

theorem load_group (s : String) (hs : A.series s ≠ none) (cols : List (String × List ℚ)) (g : String) :
    Rel φ id (loadGroup A s cols g) (loadGroup A' s cols g) := by
  unfold loadGroup
  rw [H.scenario]
  exact Rel.bind (r := id) (Rel.need _ _ _) fun _ => Rel.bind (Rel.pushNew (H.seriesCodes s hs g) rfl) fun _ => Rel.pure (r := id) _

omit H in
theorem column_named {s : String} {cols : List (String × List ℚ)} {c : String} {added : List (Param W')} {n : PName} {ad : List (Param W')}
    (h : loadColumn A' s cols c added = .ok (n, ad)) : n = named c (some s) := by
  unfold loadColumn at h
  cases hf : cols.find? (fun x => decide (x.1 = c)) with
  | none => rw [hf] at h; cases h
  | some x =>
    rw [hf] at h
    simp only [need, Bind.bind, Step.bind, Pure.pure, Step.pure, pushNew] at h
    split at h
    · cases h
    · cases h; rfl

omit H in
theorem group_named {s : String} {cols : List (String × List ℚ)} {c : String} {added : List (Param W')} {n : PName} {ad : List (Param W')}
    (h : loadGroup A' s cols c added = .ok (n, ad)) : n = named c (some s) := by
  unfold loadGroup at h
  cases hf : A'.scenario c with
  | none => rw [hf] at h; cases h
  | some x =>
    rw [hf] at h
    simp only [need, Bind.bind, Step.bind, Pure.pure, Step.pure, pushNew] at h
    split at h
    · cases h
    · cases h; rfl

theorem load_series (s : String) (c : Option Columns) : Rel φ (Source.pull φ) (loadSeries A s c) (loadSeries A' s c) := by
  unfold loadSeries
  rw [H.series]
  cases hs : A.series s with
  | none => intro added; rfl
  | some cols =>
    have hne : A.series s ≠ none := by rw [hs]; simp
    refine Rel.bind (r := id) (Rel.need _ _ _) fun cols => ?_
    have last : ∀ n, (∃ c, n = named c (some s)) → Rel φ (Source.pull φ) (pure (.param (.value (A.code n) .before)))
        (pure (.param (.value (A'.code n) .before))) := by
      rintro n ⟨c, rfl⟩
      refine Rel.pure_of ?_
      simp only [Source.pull, H.seriesCodes s hne c]
    have column : ∀ cols c, Rel φ (Source.pull φ) (loadColumn A s cols c >>= fun n => pure (.param (.value (A.code n) .before)))
        (loadColumn A' s cols c >>= fun n => pure (.param (.value (A'.code n) .before))) := fun cols c =>
      Rel.bindP (load_column H s hne cols c) (P := fun n => ∃ c, n = named c (some s)) (fun _ _ h => ⟨_, column_named h⟩) last
    rcases c with _ | g | c
    · rcases cols with _ | ⟨x, _ | ⟨y, ys⟩⟩
      · intro added; rfl
      · exact column _ _
      · intro added; rfl
    · exact Rel.bindP (load_group H s hne cols g) (P := fun n => ∃ c, n = named c (some s)) (fun _ _ h => ⟨_, group_named h⟩) last
    · exact column _ _

theorem load_component (r : String) : Rel φ (Source.pull φ) (loadComponent A r) (loadComponent A' r) := by
  unfold loadComponent
  rcases H.comp r with ⟨e, e', h, h'⟩ | ⟨f, f', h, h', hf⟩ | ⟨x, f, f', l, l', hx, h, h', hf, hl⟩ <;> simp only [h, h']
  · exact Rel.fail _ _
  · refine Rel.pure_of ?_
    simp only [Source.pull, hf]
  · refine Rel.bind (Rel.pushNew (H.locals _ x hx) ?_) fun _ => Rel.pure_of ?_
    · simp only [Kind.over, Source.pull, hf, hl]
    · simp only [Source.pull, H.locals _ x hx]

theorem load_ref {o : Option String} (ho : Owned names o) (r : PRef) : r.load A o = (r.load A' (o.map ρ)).pull φ := by
  unfold PRef.load
  cases r.key <;> simp only [H.code ho, Source.pull]

theorem load_refIndex {o : Option String} (ho : Owned names o) (r : PRef) : r.loadIndex A o = (r.loadIndex A' (o.map ρ)).pull φ := by
  unfold PRef.loadIndex
  cases r.key <;> simp only [H.code ho, Source.pull]

theorem load_metric {o : Option String} (ho : Owned names o) (m : SMetric) :
    Rel φ (Source.pull φ) (m.load A o) (m.load A' (o.map ρ)) := by
  cases m with
  | literal v => exact Rel.pure_of rfl
  | table r =>
    simp only [SMetric.load, H.table]
    exact Rel.bind (r := id) (Rel.need _ _ _) fun v => Rel.pure_of rfl
  | component c => exact load_component H c
  | series s c => exact load_series H s c
  | param r => exact Rel.pure_of (load_ref H (o := none) trivial r)
  | localParam r =>
    cases o with
    | none => exact Rel.fail _ _
    | some x => exact Rel.pure_of (load_ref H ho r)

theorem load_global (m : SMetric) : Rel φ (Source.pull φ) (m.load A none) (m.load A' none) := load_metric H (o := none) trivial m

theorem load_index {o : Option String} (ho : Owned names o) (m : SIndex) :
    Rel φ (Source.pull φ) (m.load A o) ((sindex ρ m).load A' (o.map ρ)) := by
  cases m with
  | constant v => exact Rel.pure_of rfl
  | table r =>
    simp only [SIndex.load, sindex, H.tableIndex]
    exact Rel.bind (r := id) (Rel.need _ _ _) fun v => Rel.pure_of rfl
  | node n =>
    simp only [SIndex.load, sindex]
    intro added
    split <;> split <;> rfl
  | param r => exact Rel.pure_of (load_refIndex H (o := none) trivial r)
  | localParam r =>
    cases o with
    | none => exact Rel.fail _ _
    | some x => exact Rel.pure_of (load_refIndex H ho r)
  | transfer n =>
    refine Rel.pure_of ?_
    simp only [Source.pull, H.transfer]

theorem load_indexGlobal (m : SIndex) : Rel φ (Source.pull φ) (m.load A none) ((sindex ρ m).load A' none) := load_index H (o := none) trivial m

theorem load_const (v : SConst) : Rel φ id (v.load A) (v.load A') := by
  cases v with
  | lit v => exact Rel.pure (r := id) v
  | table r => simp only [SConst.load, H.table]; exact Rel.need _ _ _

theorem load_nat (d : Nat) (v : Option SNat) : Rel φ id (natOr A d v) (natOr A' d v) := by
  rcases v with _ | v | r
  · exact Rel.pure (r := id) d
  · exact Rel.pure (r := id) v
  · simp only [natOr, H.tableIndex]; exact Rel.need _ _ _

theorem load_list (v : SList) : Rel φ id (v.load A) (v.load A') := by
  cases v with
  | lit v => exact Rel.pure (r := id) v
  | table r => simp only [SList.load, H.tableList]; exact Rel.need _ _ _

theorem metrics {o : Option String} (ho : Owned names o) (ms : List SMetric) :
    Rel φ (List.map (Source.pull φ)) (each (SMetric.load A o) ms) (each (SMetric.load A' (o.map ρ)) ms) :=
  Rel.each_same ms fun m _ => load_metric H ho m

theorem metrics_global (ms : List SMetric) :
    Rel φ (List.map (Source.pull φ)) (each (SMetric.load A none) ms) (each (SMetric.load A' none) ms) :=
  Rel.each_same ms fun m _ => load_global H m

theorem returned {name : String} {o : Option String} (ho : Owned names o) {i i' : PName} (hi : A'.code i' = A.code i) (vs : Option (List SMetric)) :
    Rel φ id (addReturned A name o i vs) (addReturned A' name (o.map ρ) i' vs) := by
  cases vs with
  | none => exact Rel.pure (r := id) ()
  | some vs =>
    refine Rel.bind (metrics_global H vs) fun _ => Rel.push (H.code ho _) ?_
    simp only [Kind.over, Source.pull, hi]

theorem add_kind (name : String) {o : Option String} (ho : Owned names o) (k : SKind) :
    Rel φ id (k.add A name o) ((skind ρ k).add A' name (o.map ρ)) := by
  have hc := H.code ho name
  cases k with
  | constant v => exact Rel.bind (load_const H v) fun _ => Rel.push hc rfl
  | constantScenario vs g =>
    simp only [SKind.add, skind, H.scenario]
    exact Rel.bind (load_list H vs) fun _ => Rel.bind (r := id) (Rel.need _ _ _) fun _ =>
      Rel.ite (Rel.bind (r := id) (Rel.need _ _ _) fun _ => Rel.push hc rfl) (Rel.fail _ _)
  | controlCurveInterpolated x cs vs =>
    refine Rel.bind (load_global H x) fun _ => Rel.bind (metrics_global H cs) fun _ => Rel.bind (metrics_global H vs) fun _ => Rel.push hc ?_
    simp only [interpolatedKind, Kind.over, List.map_cons, List.map_append, List.length_map]
  | aggregated f ms p => exact Rel.bind (metrics H ho ms) fun _ => Rel.push hc rfl
  | aggregatedIndex f ms p =>
    exact Rel.bind (Rel.each (g := sindex ρ) ms fun m _ => load_index H ho m) fun _ => Rel.push hc rfl
  | asymmetric a b => exact Rel.bind (load_indexGlobal H a) fun _ => Rel.bind (load_indexGlobal H b) fun _ => Rel.push hc rfl
  | controlCurvePiecewise x cs vs hi lo => exact Rel.bind (load_metric H ho x) fun _ => Rel.bind (metrics H ho cs) fun _ => Rel.push hc rfl
  | controlCurveIndex x cs => exact Rel.bind (load_metric H ho x) fun _ => Rel.bind (metrics H ho cs) fun _ => Rel.push hc rfl
  | controlCurve x cs vs =>
    refine Rel.bind (load_global H x) fun _ => Rel.bind (metrics H ho cs) fun _ => Rel.bind (metrics H ho vs) fun _ => Rel.push hc ?_
    simp only [curveKind, Kind.over, List.map_cons, List.map_append, List.length_map]
  | daily vs =>
    simp only [SKind.add, skind, H.time]
    exact Rel.bind (load_list H vs) fun _ => Rel.bind (r := id) (Rel.need _ _ _) fun _ => Rel.push hc rfl
  | indexed i ms => exact Rel.bind (load_indexGlobal H i) fun _ => Rel.bind (metrics H ho ms) fun _ => Rel.push hc rfl
  | monthly vs i =>
    simp only [SKind.add, skind, H.time]
    exact Rel.bind (load_list H vs) fun _ => Rel.ite (Rel.push hc rfl) (Rel.fail _ _)
  | weekly vs i =>
    simp only [SKind.add, skind, H.time]
    exact Rel.bind (load_list H vs) fun _ => Rel.ite (Rel.push hc rfl) (Rel.fail _ _)
  | drawdown d m r =>
    simp only [SKind.add, skind, H.time]
    exact Rel.bind (load_nat H 1 d) fun _ => Rel.bind (load_nat H 1 m) fun _ => Rel.bind (load_nat H 0 r) fun _ =>
      Rel.ite (Rel.bind (r := id) (Rel.need _ _ _) fun _ => Rel.push hc rfl) (Rel.fail _ _)
  | max m l => exact Rel.bind (load_global H m) fun _ => Rel.push hc rfl
  | min m l => exact Rel.bind (load_global H m) fun _ => Rel.push hc rfl
  | negative m => exact Rel.bind (load_global H m) fun _ => Rel.push hc rfl
  | polynomial m cs sc off => exact Rel.bind (load_global H m) fun _ => Rel.push hc rfl
  | threshold m l p r ratchet =>
    have ht : A'.code (thresholdName name (o.map ρ) r) = A.code (thresholdName name o r) := by
      cases r with
      | none => exact hc
      | some _ => exact H.thresholds name
    exact Rel.bind (load_global H m) fun _ => Rel.bind (load_global H l) fun _ => Rel.bind (Rel.push ht rfl) fun _ => returned H ho ht r
  | delay m d v => exact Rel.bind (load_global H m) fun _ => Rel.push hc rfl
  | delayIndex m d v => exact Rel.bind (load_indexGlobal H m) fun _ => Rel.push hc rfl
  | division a b p => exact Rel.bind (load_global H a) fun _ => Rel.bind (load_global H b) fun _ => Rel.push hc rfl
  | offset m c => exact Rel.bind (load_global H m) fun _ => Rel.bind (load_const H c) fun _ => Rel.push hc rfl
  | discount m y => exact Rel.bind (load_global H m) fun _ => Rel.push hc rfl
  | interpolated x xp fp e =>
    refine Rel.bind (load_global H x) fun _ => Rel.ite (Rel.bind (metrics_global H xp) fun xs => Rel.bind (metrics_global H fp) fun fs =>
      Rel.push hc ?_) (Rel.fail _ _)
    simp only [pointsKind, Kind.over, List.map_cons, List.map_flatMap, List.zip_map, List.flatMap_map, List.map_nil]
    rfl
  | negativeMax m l => exact Rel.bind (load_global H m) fun _ => Rel.push hc rfl
  | negativeMin m l => exact Rel.bind (load_global H m) fun _ => Rel.push hc rfl
  | rolling m w v mv f => exact Rel.bind (load_global H m) fun _ => Rel.push hc rfl
  | rollingIndex m w v mv f => exact Rel.bind (load_indexGlobal H m) fun _ => Rel.push hc rfl
  | placeholder => exact Rel.fail _ _
  | multiThreshold m ts p r ratchet =>
    have ht : A'.code (multiThresholdName name r) = A.code (multiThresholdName name r) := by
      cases r with
      | none => exact H.globals name
      | some _ => exact H.thresholds name
    exact Rel.bind (load_global H m) fun _ => Rel.bind (metrics H ho ts) fun _ => Rel.bind (Rel.push ht rfl) fun _ => returned H ho ht r
  | diurnal vs =>
    simp only [SKind.add, skind, H.time]
    exact Rel.bind (load_list H vs) fun _ => Rel.ite (Rel.push hc rfl) (Rel.fail _ _)
  | difference a b lo hi =>
    exact Rel.bind (load_metric H ho a) fun _ => Rel.bind (load_metric H ho b) fun _ => Rel.bind (load_metric H ho lo) fun _ =>
      Rel.bind (load_metric H ho hi) fun _ => Rel.push hc rfl
  | volumeBetween t u l =>
    exact Rel.bind (load_metric H ho t) fun _ => Rel.bind (load_metric H ho u) fun _ => Rel.bind (load_metric H ho l) fun _ => Rel.push hc rfl

theorem load_node (n : SNode) (hn : n.name ∈ names) : Rel φ (List.map (Source.pull φ)) (n.load A) ((docNode ρ n).load A') :=
  metrics H (o := some n.name) hn n.uses

theorem add_params (n : SNode) (hn : n.name ∈ names) : Rel φ (List.map id) (n.addParams A) ((docNode ρ n).addParams A') :=
  Rel.each (g := fun p => (p.1, skind ρ p.2)) n.params fun p _ => add_kind H p.1 (o := some n.name) hn p.2

theorem load_output (D : Doc) (m : SMetric) : Rel φ (Source.pull φ) (D.loadOutput A m) ((docOf ρ D).loadOutput A' m) := by
  have hp : ∀ x : String, ((docOf ρ D).params.any fun p => decide (p.1 = x)) = D.params.any fun p => decide (p.1 = x) := fun x => by
    simp only [docOf, List.any_map, Function.comp_def]
  refine Rel.bind (load_global H m) fun s => ?_
  cases m with
  | literal v => exact Rel.fail _ _
  | param r =>
    simp only [hp]
    exact Rel.ite (Rel.pure s) (Rel.fail _ _)
  | localParam r =>
    simp only [hp]
    exact Rel.ite (Rel.pure s) (Rel.fail _ _)
  | _ => exact Rel.pure s

/-- The metrics of nodes, metric sets and transfers of a document that is loaded. -/
def pulled (φ : W → W') (p : List (Source W') × List (Source W') × List (Source W')) : List (Source W) × List (Source W) × List (Source W) :=
  (p.1.map (Source.pull φ), p.2.1.map (Source.pull φ), p.2.2.map (Source.pull φ))

theorem load_doc (hρ : Function.Injective ρ) (D : Doc) (hD : ∀ n ∈ D.nodes ++ D.virtuals, n.name ∈ names) :
    Rel φ (pulled φ) (D.load A) ((docOf ρ D).load A') := by
  have hv : (docOf ρ D).valid = D.valid := by
    unfold Doc.valid
    have : ((docOf ρ D).nodes ++ (docOf ρ D).virtuals).map SNode.name = ((D.nodes ++ D.virtuals).map SNode.name).map ρ := by
      simp only [docOf, ← List.map_append, List.map_map]
      rfl
    rw [this, Bool.eq_iff_iff]
    simp only [decide_eq_true_eq]
    exact List.nodup_map_iff hρ
  unfold Doc.load
  rw [hv]
  refine Rel.ite ?_ (Rel.fail _ _)
  refine Rel.bind (Rel.each (g := docNode ρ) D.nodes fun n hn => load_node H n (hD n (List.mem_append_left _ hn))) fun us => ?_
  refine Rel.bind (Rel.each (g := docNode ρ) D.virtuals fun n hn => load_node H n (hD n (List.mem_append_right _ hn))) fun vs => ?_
  refine Rel.bind (Rel.each (g := docNode ρ) D.nodes fun n hn => add_params H n (hD n (List.mem_append_left _ hn))) fun _ => ?_
  refine Rel.bind (Rel.each (g := fun p => (p.1, skind ρ p.2)) D.params fun p _ => add_kind H p.1 (o := none) trivial p.2) fun _ => ?_
  refine Rel.bind (Rel.each_same D.outputs fun m _ => load_output H D m) fun os => ?_
  refine Rel.bind (metrics_global H D.links) fun ls => Rel.pure_of ?_
  simp only [pulled, List.map_append, List.map_flatten]

end Verif.Rename
