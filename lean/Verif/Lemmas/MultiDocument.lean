import Verif.Spec.MultiDocument
import Verif.Lemmas.DocumentVirtual
import Verif.Props.Multi

/-! # Runs of documents of several networks -/

namespace Verif.EndToEnd

open Verif.State Verif.Solver Verif.Time Verif.Simulation
open Verif.Params Verif.Kinds
open Verif.Schema (Frag Core)

/-! ## What networks are given matters in the step only -/

section
variable {V S W : Type}

theorem calcAll_nodes (k : Calcs V S W) (g : Nat → W → List V → Option W) (stage : Stage) (t : Nat) :
    ∀ (ops : List Params.Op) (x : Scene V S W), calcAll { k with nodes := g } stage t ops x = calcAll k stage t ops x
  | [], _ => rfl
  | op :: ops, x => by
    have h : calcOp { k with nodes := g } stage t op x = calcOp k stage t op x := rfl
    simp only [calcAll, h]
    cases calcOp k stage t op x with
    | none => rfl
    | some y => exact calcAll_nodes k g stage t ops y

theorem startScene_nodes (k : Calcs V S W) (g : Nat → W → List V → Option W) (net : Network) (w : W) :
    startScene { k with nodes := g } net w = startScene k net w := calcAll_nodes k g _ _ _ _

theorem stepScene_nodes (k : Calcs V S W) {g : Nat → W → List V → Option W} (net : Network) {t : Nat} (h : g t = k.nodes t)
    (x : Scene V S W) : stepScene { k with nodes := g } net t x = stepScene k net t x := by
  simp only [stepScene, calcAll_nodes, h]

end

theorem start_given {D : Document} {E : Setting} {F : Frag} {C : Core} {ss : List (Source Area)} {ps : List (Param Area)} (g h : Nat → List ℚ)
    (net : Network) (w : Area) :
    startScene (calcsOf D { E with given := g } F C ss ps) net w = startScene (calcsOf D { E with given := h } F C ss ps) net w :=
  startScene_nodes (calcsOf D { E with given := h } F C ss ps) _ net w

theorem step_given {D : Document} {E : Setting} {F : Frag} {C : Core} {ss : List (Source Area)} {ps : List (Param Area)} {g h : Nat → List ℚ}
    (net : Network) {t : Nat} (hg : g t = h t) (x : Scene Val Inner Area) :
    stepScene (calcsOf D { E with given := g } F C ss ps) net t x = stepScene (calcsOf D { E with given := h } F C ss ps) net t x := by
  refine stepScene_nodes (calcsOf D { E with given := h } F C ss ps) net ?_ x
  funext w _
  simp only [calcsOf, calcs, Load.preparing, start, hg]

/-! ## Networks that are ready -/

/-- What a network is made of. -/
structure IsReady (D : Document) (E : Setting) (R : Ready) : Prop where
  document : R.document = D
  setting : R.setting = E
  compiled : D.net.compile D.numbers = .ok R.F
  built : R.F.build = .ok R.C
  listed : D.listed R.F = true
  initial : (D.sim R.F R.C).initial E.big E.negBig = .ok R.state
  loaded : D.doc.loaded (D.args E R.F R.C) = .ok ((R.uses, R.outputs, R.links), R.params)
  net : buildNetwork (R.params.length + 1) (builders R.params) (Load.refsOf ((Load.pick (volumeIds R.F) R.uses).map Prod.snd))
    (Load.refsOf R.uses) = some R.net
  outputs : resolveAll R.net.params.maps ((Load.refsOf R.outputs).map fun r => ⟨r, .after⟩) = .ok R.outputReads
  links : resolveAll R.net.params.maps ((Load.refsOf R.links).map fun r => ⟨r, .after⟩) = .ok R.linkReads
  first : startScene (calcsOf D E R.F R.C R.uses R.params) R.net (blank (D.sim R.F R.C) E R.state) = some R.first

theorem ready_ok {D : Document} {E : Setting} {R : Ready} (h : D.ready E = .ok R) : IsReady D E R := by
  unfold Document.ready at h
  split at h
  · cases h
  · rename_i F h1
    split at h
    · cases h
    · rename_i C h2
      split at h
      · rename_i h3
        split at h
        · cases h
        · rename_i s h4
          split at h
          · cases h
          · rename_i ss os ls ps h5
            split at h
            · cases h
            · rename_i net h6
              split at h
              · rename_i outs reads h7 h8
                split at h
                · cases h
                · rename_i x h9
                  obtain rfl := Except.ok.inj h
                  exact ⟨rfl, rfl, h1, h2, h3, h4, h5, h6, h7, h8, h9⟩
              · cases h
      · cases h

theorem ready_list {M : MultiDocument} : ∀ {Ps : List Part} {Rs : List Ready}, M.ready Ps = .ok Rs →
    List.Forall₂ (fun P R => IsReady (M.document P) (M.setting P fun _ => []) R) Ps Rs
  | [], Rs, h => by
    obtain rfl := Except.ok.inj h
    exact .nil
  | P :: Ps, Rs, h => by
    unfold MultiDocument.ready at h
    split at h
    · cases h
    · rename_i R h1
      split at h
      · cases h
      · rename_i Rs' h2
        obtain rfl := Except.ok.inj h
        exact .cons (ready_ok h1) (ready_list h2)

/-! ## Positions -/

theorem transfersOf_get : ∀ (before ls : List Link) (j : Nat) (l : Link), ls[j]? = some l →
    (transfersOf before ls)[j]? = some ⟨l.name, l.source,
      fun R s => R.value (((before ++ ls.take j).filter fun k => k.source = l.source).length) s, l.initial⟩
  | _, [], j, l, h => by simp at h
  | before, k :: ls, 0, l, h => by
    obtain rfl : k = l := by simpa using h
    simp [transfersOf]
  | before, k :: ls, j + 1, l, h => by
    rw [transfersOf, List.getElem?_cons_succ, transfersOf_get (before ++ [k]) ls j l (by simpa using h)]
    simp

theorem transfersOf_map {β : Type} (f : String → String → Option ℚ → β) : ∀ (before ls : List Link),
    (transfersOf before ls).map (fun t => f t.name t.fromModel t.initial) = ls.map fun l => f l.name l.source l.initial
  | _, [] => rfl
  | before, l :: ls => by simp [transfersOf, transfersOf_map f]

theorem declsOf_get : ∀ (before : List Link) (Ps : List Part) (Rs : List Ready) (b : Nat) (P : Part) (R : Ready), Ps[b]? = some P → Rs[b]? = some R →
    (declsOf before Ps Rs)[b]? = some ⟨P.name, R, transfersOf (before ++ (Ps.take b).flatMap Part.links) P.links⟩
  | _, [], _, _, _, _, h, _ => by simp at h
  | _, _ :: _, [], _, _, _, _, h => by simp at h
  | before, Q :: Ps, T :: Rs, 0, P, R, h1, h2 => by
    obtain rfl : Q = P := by simpa using h1
    obtain rfl : T = R := by simpa using h2
    simp [declsOf]
  | before, Q :: Ps, T :: Rs, b + 1, P, R, h1, h2 => by
    rw [declsOf, List.getElem?_cons_succ, declsOf_get (before ++ Q.links) Ps Rs b P R (by simpa using h1) (by simpa using h2)]
    simp

theorem declsOf_length : ∀ (before : List Link) (Ps : List Part) (Rs : List Ready), Ps.length = Rs.length →
    (declsOf before Ps Rs).length = Ps.length
  | _, [], [], _ => rfl
  | before, _ :: Ps, _ :: Rs, h => by simp [declsOf, declsOf_length _ Ps Rs (by simpa using h)]

/-- The metric of a link is one of those that are asked of its network. -/
theorem wanted_get {M : MultiDocument} {b : Nat} {P : Part} (hb : M.parts[b]? = some P) {j : Nat} {l : Link} (hj : P.links[j]? = some l) :
    (M.wanted l.source)[((((M.parts.take b).flatMap Part.links) ++ P.links.take j).filter fun k => k.source = l.source).length]? =
      some l.metric := by
  obtain ⟨h1, rfl⟩ := List.getElem?_eq_some_iff.1 hb
  obtain ⟨h2, rfl⟩ := List.getElem?_eq_some_iff.1 hj
  have hparts : M.parts.flatMap Part.links = ((M.parts.take b).flatMap Part.links ++ (M.parts[b]).links.take j) ++
      (M.parts[b]).links[j] :: ((M.parts[b]).links.drop (j + 1) ++ (M.parts.drop (b + 1)).flatMap Part.links) := by
    have h3 : (M.parts[b]).links = (M.parts[b]).links.take j ++ (M.parts[b]).links[j] :: (M.parts[b]).links.drop (j + 1) := by
      rw [← List.drop_eq_getElem_cons h2, List.take_append_drop]
    have h4 : M.parts = M.parts.take b ++ M.parts[b] :: M.parts.drop (b + 1) := by
      rw [← List.drop_eq_getElem_cons h1, List.take_append_drop]
    calc M.parts.flatMap Part.links = (M.parts.take b ++ M.parts[b] :: M.parts.drop (b + 1)).flatMap Part.links := by rw [← h4]
      _ = (M.parts.take b).flatMap Part.links ++ ((M.parts[b]).links ++ (M.parts.drop (b + 1)).flatMap Part.links) := by
        rw [List.flatMap_append, List.flatMap_cons]
      _ = (M.parts.take b).flatMap Part.links ++ (((M.parts[b]).links.take j ++ (M.parts[b]).links[j] :: (M.parts[b]).links.drop (j + 1)) ++
          (M.parts.drop (b + 1)).flatMap Part.links) := by rw [← h3]
      _ = _ := by simp only [List.append_assoc, List.cons_append]
  unfold MultiDocument.wanted
  rw [hparts, List.filter_append, List.filter_cons_of_pos (by simp), List.map_append]
  rw [List.getElem?_append_right (by simp)]
  simp

/-! ## The run of one of several networks -/

theorem trace_steps {N S T : Type} {run : N → T → List (Multi.Scenario S) → Option (List S)} {entries : List (Multi.Entry N S)} :
    ∀ {k : Nat} {ts : List T} {st : List (List (Multi.Scenario S))} {tr}, Multi.trace run entries k ts st = .ok tr →
      tr.length = ts.length + 1 ∧ tr[0]? = some st ∧ ∀ (i : Nat) (t : T), ts[i]? = some t → ∃ s s', tr[i]? = some s ∧ tr[i + 1]? = some s' ∧
        Multi.step run entries t (k + i == 0) s = .ok s'
  | k, [], st, tr, h => by
    simp only [Multi.trace, Except.ok.injEq] at h
    subst h
    exact ⟨rfl, rfl, by simp⟩
  | k, t :: ts, st, tr, h => by
    unfold Multi.trace at h
    split at h
    · cases h
    · rename_i s' h1
      split at h
      · cases h
      · rename_i rest h2
        obtain rfl := Except.ok.inj h
        obtain ⟨g0, g1, g2⟩ := trace_steps h2
        refine ⟨by simp [g0], rfl, fun i u hu => ?_⟩
        cases i with
        | zero =>
          obtain rfl : t = u := by simpa using hu
          exact ⟨st, s', rfl, by simpa using g1, h1⟩
        | succ i =>
          obtain ⟨a, b, h3, h4, h5⟩ := g2 i u (by simpa using hu)
          exact ⟨a, b, by simpa using h3, by simpa using h4, by rwa [show k + (i + 1) = k + 1 + i by omega]⟩

theorem allOf_length {α β : Type} {g : α → Option β} : ∀ {l : List α} {r : List β}, allOf g l = some r → r.length = l.length
  | [], r, h => by
    obtain rfl := Option.some.inj h
    rfl
  | a :: l, r, h => by
    unfold allOf at h
    split at h
    · rename_i h1 h2
      obtain rfl := Option.some.inj h
      simp [allOf_length h2]
    · cases h

theorem allOf_get {α β : Type} {g : α → Option β} : ∀ {l : List α} {r : List β}, allOf g l = some r → ∀ (i : Nat) (a : α), l[i]? = some a →
    ∃ b, r[i]? = some b ∧ g a = some b
  | [], r, h, i, a, hi => by simp at hi
  | x :: l, r, h, i, a, hi => by
    unfold allOf at h
    split at h
    · rename_i y ys h1 h2
      obtain rfl := Option.some.inj h
      cases i with
      | zero =>
        obtain rfl : x = a := by simpa using hi
        exact ⟨y, by simp, h1⟩
      | succ i =>
        obtain ⟨b, h3, h4⟩ := allOf_get h2 i a (by simpa using hi)
        exact ⟨b, by simpa using h3, h4⟩
    · cases h

theorem step_keeps (R : Ready) (t : Nat) (l : List (Multi.Scenario (Scene Val Inner Area))) (r : List (Scene Val Inner Area))
    (h : Ready.step R t l = some r) : r.length = l.length := allOf_length h

/-- One network in one step. -/
theorem one_step {entries : List (Multi.Entry Ready (Scene Val Inner Area))} {t : Nat} {first : Bool}
    {s s' : List (List (Multi.Scenario (Scene Val Inner Area)))} (h : Multi.step Ready.step entries t first s = .ok s') {b : Nat}
    {e : Multi.Entry Ready (Scene Val Inner Area)} (he : entries[b]? = some e) {x : Scene Val Inner Area} {vs : List ℚ}
    (hs : s[b]? = some [⟨x, vs⟩]) :
    ∃ y us, s'[b]? = some [⟨y, us⟩] ∧ us.length = vs.length ∧
      stepScene (calcsOf e.network.document { e.network.setting with given := fun _ => us } e.network.F e.network.C e.network.uses e.network.params)
        e.network.net t x = some y := by
  obtain ⟨-, -, h1⟩ := Multi.stepFrom_spec h
  obtain ⟨mid, this, this', inner, -, -, -, h2, h3, h4, h5⟩ := h1 b e he
  rw [Nat.zero_add] at h2 h3 h5
  rw [hs] at h2
  obtain rfl := Option.some.inj h2
  obtain ⟨h6, h7⟩ := Multi.deliver_spec h3
  obtain ⟨us, h8, h9⟩ := h7 0 ⟨x, vs⟩ rfl
  have h10 : this' = [⟨x, us⟩] := by
    match this', h6, h8 with
    | [a], _, h8 => simpa using h8
  subst h10
  have h11 := (Multi.transferValues_spec h9).1
  obtain ⟨y, h12, h13⟩ := allOf_get h4 0 _ rfl
  have h14 : inner = [y] := by
    have := allOf_length h4
    match inner, this, h12 with
    | [a], _, h12 => simpa using h12
  subst h14
  exact ⟨y, us, h5, h11, h13⟩

theorem build_get {N S : Type} {ds : List (Multi.Decl N S)} {es} (h : Multi.build ds = .ok es) {b : Nat} {d : Multi.Decl N S}
    (hd : ds[b]? = some d) : ∃ us, es[b]? = some ⟨d.name, d.network, us⟩ := by
  unfold Multi.build at h
  split at h
  · cases h
  · obtain ⟨us, h1, -⟩ := (Multi.buildEntries_get h).2 b d hd
    exact ⟨us, h1⟩

/-- What one of several networks does in a run. -/
structure Course (M : MultiDocument) (P : Part) (R : Ready) (b n : Nat) (tr : List (List (List (Multi.Scenario (Scene Val Inner Area)))))
    (scene : Nat → Scene Val Inner Area) (given : Nat → List ℚ) : Prop where
  seen : ∀ t ≤ n, ∃ s vs, tr[t]? = some s ∧ s[b]? = some [⟨scene t, vs⟩]
  taken : ∀ t < n, ∃ s, tr[t + 1]? = some s ∧ s[b]? = some [⟨scene (t + 1), given t⟩]
  length : ∀ t < n, (given t).length = P.links.length
  run : ∀ t ≤ n, runScene (calcsOf (M.document P) (M.setting P given) R.F R.C R.uses R.params) R.net
    (blank ((M.document P).sim R.F R.C) (M.setting P given) R.state) t = some (scene t)

theorem course {M : MultiDocument} {n : Nat} {Rs : List Ready} {entries : List (Multi.Entry Ready (Scene Val Inner Area))}
    (hbuild : Multi.build (declsOf [] M.parts Rs) = .ok entries) {tr}
    (htr : Multi.trace Ready.step entries 0 (List.range n) (starts M.parts Rs) = .ok tr) {b : Nat} {P : Part} {R : Ready}
    (hP : M.parts[b]? = some P) (hR : Rs[b]? = some R) (hI : IsReady (M.document P) (M.setting P fun _ => []) R) :
    ∃ scene given, Course M P R b n tr scene given := by
  obtain ⟨-, h0, hsteps⟩ := trace_steps htr
  obtain ⟨us, hent⟩ := build_get hbuild (declsOf_get [] _ _ _ _ _ hP hR)
  have hstart : (starts M.parts Rs)[b]? = some [⟨R.first, List.replicate P.links.length 0⟩] := by
    simp [starts, List.getElem?_zipWith, hP, hR]
  have hat : ∀ t ≤ n, ∃ s x vs, tr[t]? = some s ∧ s[b]? = some [⟨x, vs⟩] ∧ vs.length = P.links.length := by
    intro t
    induction t with
    | zero => intro _; exact ⟨_, _, _, h0, hstart, by simp⟩
    | succ t ih =>
      intro ht
      obtain ⟨s, x, vs, h1, h2, h3⟩ := ih (by omega)
      obtain ⟨s₁, s₂, h4, h5, h6⟩ := hsteps t t (List.getElem?_range (by omega))
      rw [h1] at h4
      obtain rfl := Option.some.inj h4
      obtain ⟨y, us', h7, h8, -⟩ := one_step h6 hent h2
      exact ⟨s₂, y, us', h5, h7, h8.trans h3⟩
  have hat' : ∀ t, ∃ (x : Scene Val Inner Area) (vs : List ℚ), t ≤ n → ∃ s, tr[t]? = some s ∧ s[b]? = some [⟨x, vs⟩] ∧ vs.length = P.links.length := by
    intro t
    by_cases ht : t ≤ n
    · obtain ⟨s, x, vs, h⟩ := hat t ht
      exact ⟨x, vs, fun _ => ⟨s, h⟩⟩
    · exact ⟨R.first, [], fun h => absurd h ht⟩
  choose scene values hsv using hat'
  have hnext : ∀ t < n, stepScene (calcsOf (M.document P) (M.setting P fun t => values (t + 1)) R.F R.C R.uses R.params) R.net t (scene t) =
      some (scene (t + 1)) := by
    intro t ht
    obtain ⟨s, h1, h2, -⟩ := hsv t (by omega)
    obtain ⟨s', h3, h4, -⟩ := hsv (t + 1) (by omega)
    obtain ⟨s₁, s₂, h5, h6, h7⟩ := hsteps t t (List.getElem?_range (by omega))
    rw [h1] at h5
    obtain rfl := Option.some.inj h5
    rw [h3] at h6
    obtain rfl := Option.some.inj h6
    obtain ⟨y, us', h8, h9, h10⟩ := one_step h7 hent h2
    rw [h4] at h8
    simp only [Option.some.injEq, List.cons.injEq, Multi.Scenario.mk.injEq, and_true] at h8
    obtain ⟨rfl, rfl⟩ := h8
    rw [← h10]
    simp only [hI.document, hI.setting]
    exact step_given (E := M.setting P fun _ => []) (g := fun t => values (t + 1)) (h := fun _ => values (t + 1)) R.net rfl _
  refine ⟨scene, fun t => values (t + 1), fun t ht => ?_, fun t ht => ?_, fun t ht => ?_, ?_⟩
  · obtain ⟨s, h1, h2, -⟩ := hsv t ht
    exact ⟨s, _, h1, h2⟩
  · obtain ⟨s, h1, h2, -⟩ := hsv (t + 1) ht
    exact ⟨s, h1, h2⟩
  · obtain ⟨s, h1, h2, h3⟩ := hsv (t + 1) ht
    exact h3
  · intro t
    induction t with
    | zero =>
      intro _
      obtain ⟨s, h1, h2, -⟩ := hsv 0 (by omega)
      rw [h0] at h1
      obtain rfl := Option.some.inj h1
      rw [hstart] at h2
      simp only [Option.some.injEq, List.cons.injEq, Multi.Scenario.mk.injEq, and_true] at h2
      rw [← h2.1, ← hI.first]
      exact start_given (E := M.setting P fun _ => []) _ _ _ _
    | succ t ih =>
      intro ht
      unfold runScene
      rw [ih (by omega)]
      exact hnext t ht

theorem Fit.given {D : Document} {E : Setting} {F : Frag} {C : Core} {n : Nat} (h : Fit D E F C n) (g : Nat → List ℚ) :
    Fit D { E with given := g } F C n :=
  ⟨h.apart, h.codes, h.factors, h.members, h.windows, h.single, h.index, h.days, h.sound, h.licences, h.rolling, h.shorter⟩

end Verif.EndToEnd
