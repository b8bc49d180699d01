import Verif.Lemmas.Variables

/-!
# C39: setting a variable value takes effect

`Reached net n ops s`: `s` is the state after setting up `n` scenarios and any sequence of uses of the
setting API, successful or not.
-/

namespace Verif.Variables

def Reached (net : List Param) (n : Nat) (ops : List Op) (s : List Scen) : Prop :=
  ∃ s₀, setupAll net n = .ok s₀ ∧ runOps net s₀ ops = some s

theorem Reached.tracks {net : List Param} {n : Nat} {ops : List Op} {s : List Scen}
    (h : Reached net n ops s) : Tracks net s ops ∧ s.length = n := by
  obtain ⟨s₀, h1, h2⟩ := h
  obtain ⟨h3, h4⟩ := Tracks.setup h1
  obtain ⟨h5, h6⟩ := h3.run h2
  exact ⟨by simpa using h5, h6.trans h4⟩

/-- The record of the last accepted values is unique. -/
theorem Recorded.unique {p : Param} {i k : Nat} {ops : List Op} {l₁ l₂ : Last}
    (h₁ : Recorded p i k ops l₁) (h₂ : Recorded p i k ops l₂) : l₁ = l₂ := by
  induction h₁ generalizing l₂ with
  | nil =>
    generalize he : ([] : List Op) = ops at h₂
    cases h₂ <;> simp_all
  | @other ops l op h hop ih =>
    generalize he : ops ++ [op] = ops' at h₂
    cases h₂ with
    | nil => simp at he
    | other op' h' hop' => obtain ⟨rfl, rfl⟩ := List.append_singleton_inj.1 he; exact ih h'
    | rejected op' v cfg h' hop' _ =>
      obtain ⟨rfl, rfl⟩ := List.append_singleton_inj.1 he; rw [hop] at hop'; cases hop'
    | accepted op' v v' cfg h' hop' _ =>
      obtain ⟨rfl, rfl⟩ := List.append_singleton_inj.1 he; rw [hop] at hop'; cases hop'
  | @rejected ops l op v cfg h hop ha ih =>
    generalize he : ops ++ [op] = ops' at h₂
    cases h₂ with
    | nil => simp at he
    | other op' h' hop' =>
      obtain ⟨rfl, rfl⟩ := List.append_singleton_inj.1 he; rw [hop] at hop'; cases hop'
    | rejected op' v cfg h' hop' _ => obtain ⟨rfl, rfl⟩ := List.append_singleton_inj.1 he; exact ih h'
    | accepted op' v₂ v' cfg₂ h' hop' ha' =>
      obtain ⟨rfl, rfl⟩ := List.append_singleton_inj.1 he; rw [hop] at hop'; cases hop'
      exact absurd ha' (ha v')
  | @accepted ops l op v v' cfg h hop ha ih =>
    generalize he : ops ++ [op] = ops' at h₂
    cases h₂ with
    | nil => simp at he
    | other op' h' hop' =>
      obtain ⟨rfl, rfl⟩ := List.append_singleton_inj.1 he; rw [hop] at hop'; cases hop'
    | rejected op' v₂ cfg₂ h' hop' ha' =>
      obtain ⟨rfl, rfl⟩ := List.append_singleton_inj.1 he; rw [hop] at hop'; cases hop'
      exact absurd ha (ha' v')
    | accepted op' v₂ v₂' cfg₂ h' hop' ha' =>
      obtain ⟨rfl, rfl⟩ := List.append_singleton_inj.1 he; rw [hop] at hop'; cases hop'
      rw [ih h', ha.unique ha']

/-- What reading returns for a record. -/
def Last.read (l : Last) : Which → Option Vals
  | .f => l.f.map .f
  | .u => l.u.map .u

private theorem locate {net : List Param} {n i k : Nat} {ops : List Op} {s : List Scen} {p : Param}
    (h : Reached net n ops s) (hp : net[i]? = some p) (hk : k < n) :
    ∃ sc st l, s[k]? = some sc ∧ sc.internals[i]? = some st ∧ Recorded p i k ops l ∧ Agrees p l st := by
  obtain ⟨ht, hlen⟩ := h.tracks
  have hks : k < s.length := by omega
  obtain ⟨st, hst⟩ := getElem?_of_len (ht.len s[k] (List.getElem_mem hks)) hp
  obtain ⟨l, h1, h2⟩ := ht.agrees k i s[k] p st (List.getElem?_eq_getElem hks) hp hst
  exact ⟨s[k], st, l, List.getElem?_eq_getElem hks, hst, h1, h2⟩

/-- Reading back, at any time, returns the last values accepted for that parameter in that scenario, and
nothing if there are none: a refinement of the whole variable API by `Recorded`. -/
theorem C39_read_back {net : List Param} {n i k : Nat} {ops : List Op} {s : List Scen} {p : Param}
    {w : Which} (h : Reached net n ops s) (hp : net[i]? = some p) (hk : k < n)
    (hv : p.isVariable w = true) (ho : ∀ o, p ≠ .offset o) :
    ∃ l, Recorded p i k ops l ∧ getOne net i k w s = .ok (l.read w) := by
  obtain ⟨sc, st, l, h1, h2, h3, h4⟩ := locate h hp hk
  refine ⟨l, h3, ?_⟩
  unfold getOne
  simp only [hp, hv, if_true, h1, h2]
  cases p with
  | offset o => exact absurd rfl (ho o)
  | other f => cases hv
  | constant c =>
    cases w with
    | u => cases hv
    | f =>
      cases st with
      | none => rcases h4 with ⟨_, h4⟩ | ⟨_, h4⟩ <;> cases h4
      | rbf a b c => obtain ⟨_, _, h4, -⟩ := h4; cases h4
      | value v =>
        obtain ⟨-, h4, -⟩ := h4
        simp only [getVariables, Last.read, h4, Option.map_map]
        rfl
  | rbf ps interp =>
    cases st with
    | none => rcases h4 with ⟨_, h4⟩ | ⟨_, h4⟩ <;> cases h4
    | value v => obtain ⟨⟨_, h4⟩, -⟩ := h4; cases h4
    | rbf a b c =>
      obtain ⟨_, _, -, rfl, rfl, -⟩ := h4
      cases w <;> rfl

/-- Profiles of radial basis functions: the next step, at any time, uses the last values and days
accepted, each independently of the other, and the original ones for those never set. -/
theorem C39_profile_effective {net : List Param} {n i k : Nat} {ops : List Op} {s : List Scen}
    {ps : List (Nat × ℚ)} {interp : List (Nat × ℚ) → Option (Nat → ℚ)}
    (h : Reached net n ops s) (hp : net[i]? = some (.rbf ps interp)) (hk : k < n) :
    ∃ l profile, Recorded (.rbf ps interp) i k ops l ∧ interp (points ps l) = some profile ∧
      ∀ x day, stepValue net i k x day s = .ok (profile day) := by
  obtain ⟨sc, st, l, h1, h2, h3, h4⟩ := locate h hp hk
  cases st with
  | none => rcases h4 with ⟨_, h4⟩ | ⟨_, h4⟩ <;> cases h4
  | value v => obtain ⟨⟨_, h4⟩, -⟩ := h4; cases h4
  | rbf a b c =>
    obtain ⟨_, _, h5, -, -, h6⟩ := h4
    cases h5
    refine ⟨l, a, h3, h6, ?_⟩
    intro x day
    unfold stepValue
    simp only [hp, h1, h2]

/-- What was just accepted for a profile is read back exactly and used from then on. -/
theorem C39_profile_partial {net : List Param} {n i k : Nat} {ops : List Op} {op : Op} {s : List Scen}
    {ps : List (Nat × ℚ)} {interp : List (Nat × ℚ) → Option (Nat → ℚ)} {v : Vals} {cfg : Config}
    (h : Reached net n (ops ++ [op]) s) (hp : net[i]? = some (.rbf ps interp)) (hk : k < n)
    (hop : op.addresses i k = some (v, cfg)) (hv : Accepted (.rbf ps interp) v cfg v) :
    getOne net i k v.which s = .ok (some v) ∧
      ∃ l profile, (l.read v.which = some v) ∧ interp (points ps l) = some profile ∧
        ∀ x day, stepValue net i k x day s = .ok (profile day) := by
  have hvar : (Param.rbf ps interp).isVariable v.which = true := by cases v <;> rfl
  obtain ⟨l, h1, h2⟩ := C39_read_back h hp hk hvar (by intro o; simp)
  obtain ⟨l', profile, h3, h4, h5⟩ := C39_profile_effective h hp hk
  have hl := h1.unique h3
  subst hl
  have hread : l.read v.which = some v := by
    generalize he : ops ++ [op] = ops' at h1
    cases h1 with
    | nil => simp at he
    | other op' h' hop' =>
      obtain ⟨rfl, rfl⟩ := List.append_singleton_inj.1 he; rw [hop] at hop'; cases hop'
    | rejected op' v₂ cfg₂ h' hop' ha' =>
      obtain ⟨rfl, rfl⟩ := List.append_singleton_inj.1 he; rw [hop] at hop'; cases hop'
      exact absurd hv (ha' v)
    | accepted op' v₂ v₂' cfg₂ h' hop' ha' =>
      obtain ⟨rfl, rfl⟩ := List.append_singleton_inj.1 he; rw [hop] at hop'; cases hop'
      rw [hv.unique ha'] at *
      cases v₂' <;> rfl
  exact ⟨by rw [h2, hread], l, profile, hread, h4, h5⟩

/-- A set that fails changes nothing, in no scenario. -/
theorem C39_failed_no_change {net : List Param} {n : Nat} {ops : List Op} {s s' : List Scen} {op : Op}
    (h : Reached net n ops s) (he : exec net s op = (s', .error)) : s' = s :=
  (h.tracks.1.exec op he (by simp)).2.2 rfl

/-- A set succeeds only with values that can be accepted, and so takes effect in every scenario
addressed. -/
theorem C39_success_accepted {net : List Param} {n i k : Nat} {ops : List Op} {s s' : List Scen} {op : Op}
    {v : Vals} {cfg : Config} (h : Reached net n ops s) (he : exec net s op = (s', .ok ()))
    (hop : op.addresses i k = some (v, cfg)) (hk : k < n) :
    ∃ p v', net[i]? = some p ∧ Accepted p v cfg v' := by
  obtain ⟨ht, hlen⟩ := h.tracks
  have hks : k < s.length := by omega
  have key : ∀ (p : Param) (sc sc' : Scen), net[i]? = some p → s[k]? = some sc →
      setScen p i v cfg sc = (sc', .ok ()) → ∃ p v', net[i]? = some p ∧ Accepted p v cfg v' := by
    intro p sc sc' hp hsc hs
    obtain ⟨st, hst⟩ := getElem?_of_len (ht.len sc (List.mem_of_getElem? hsc)) hp
    obtain ⟨l, h1, h2⟩ := ht.agrees k i sc p st hsc hp hst
    rcases setScen_spec hst h2 hs (by simp) with ⟨h3, -⟩ | ⟨-, _, v', -, h3, -⟩
    · cases h3
    · exact ⟨p, v', hp, h3⟩
  cases op with
  | all i' v₁ cfg₁ =>
    simp only [Op.addresses] at hop
    split at hop
    · rename_i hi; subst hi; cases hop
      simp only [exec, setAll] at he
      split at he
      · cases he
      · rename_i p hp
        split at he
        · have hall : ∀ sc ∈ s, ∃ st l, sc.internals[i']? = some st ∧ Agrees p l st := by
            intro sc hsc
            obtain ⟨st, hst⟩ := getElem?_of_len (ht.len sc hsc) hp
            obtain ⟨k', hk', hke⟩ := List.getElem_of_mem hsc
            obtain ⟨l, -, hl⟩ := ht.agrees k' i' sc p st (by rw [List.getElem?_eq_getElem hk', hke]) hp hst
            exact ⟨st, l, hst, hl⟩
          rcases setLoop_spec hall he (by simp) with ⟨h1, -⟩ | ⟨-, -, h2⟩
          · cases h1
          · obtain ⟨sc', -, h3⟩ := h2 k s[k] (List.getElem?_eq_getElem hks)
            exact key p s[k] sc' hp (List.getElem?_eq_getElem hks) h3
        · cases he
    · cases hop
  | one i' k' v₁ cfg₁ =>
    simp only [Op.addresses] at hop
    split at hop
    · rename_i hi; obtain ⟨hi, hi'⟩ := hi; subst hi hi'; cases hop
      simp only [exec, setOne] at he
      split at he
      · cases he
      · rename_i p hp
        split at he
        · rw [List.getElem?_eq_getElem hks] at he
          simp only at he
          obtain ⟨sc', o', hs⟩ : ∃ sc' o', setScen p i' v cfg s[k'] = (sc', o') := ⟨_, _, rfl⟩
          rw [hs] at he
          cases he
          exact key p s[k'] sc' hp (List.getElem?_eq_getElem hks) hs
        · cases he
    · cases hop

/-- Setting leaves the variables of other parameters and scenarios as they are. -/
theorem C39_others {net : List Param} {n i k : Nat} {ops : List Op} {s s' : List Scen} {op : Op} {p : Param}
    {w : Which} (h : Reached net n ops s) (h' : Reached net n (ops ++ [op]) s')
    (hop : op.addresses i k = none) (hp : net[i]? = some p) (hk : k < n)
    (hv : p.isVariable w = true) (ho : ∀ o, p ≠ .offset o) :
    getOne net i k w s' = getOne net i k w s := by
  obtain ⟨l, h1, h2⟩ := C39_read_back h hp hk hv ho
  obtain ⟨l', h3, h4⟩ := C39_read_back h' hp hk hv ho
  rw [h2, h4, (Recorded.other op h1 hop).unique h3]

/-- A parameter is exposed as variable for exactly the values it takes. -/
theorem C39_takes (p : Param) (w : Which) : p.isVariable w = true ↔ Takes p w := by
  constructor
  · intro h
    cases p <;> cases w <;> first | constructor | cases h
  · rintro (_ | _ | _)
    · rfl
    · rfl
    · cases w <;> rfl

/-- Reading or setting values a parameter does not take fails, for whatever scenario, and changes
nothing. -/
theorem C39_not_taken {net : List Param} {i : Nat} {p : Param} {w : Which} (hp : net[i]? = some p)
    (hw : ¬ Takes p w) (s : List Scen) :
    (∀ k, getOne net i k w s = .error) ∧ ∀ op : Op, ∀ k v cfg, op.addresses i k = some (v, cfg) → v.which = w →
      exec net s op = (s, .error) := by
  have hv : p.isVariable w = false := by
    rw [← Bool.not_eq_true]; exact fun h => hw ((C39_takes p w).1 h)
  refine ⟨fun k => ?_, ?_⟩
  · simp [getOne, hp, hv]
  · intro op k v cfg hop hvw
    subst hvw
    cases op with
    | all i' v' cfg' =>
      simp only [Op.addresses] at hop
      split at hop
      · rename_i hi; subst hi; cases hop
        simp [exec, setAll, hp, hv]
      · cases hop
    | one i' k' v' cfg' =>
      simp only [Op.addresses] at hop
      split at hop
      · rename_i hi; obtain ⟨hi, hi'⟩ := hi; subst hi hi'; cases hop
        simp [exec, setOne, hp, hv]
      · cases hop

/-! ## Scenarios one at a time, and the order of sets -/

private theorem setLoop_each {p : Param} {i : Nat} {v : Vals} {cfg : Config} {net : List Param}
    (hp : net[i]? = some p) (hv : p.isVariable v.which = true) :
    ∀ (s pre s' : List Scen), setLoop p i v cfg s = (s', .ok ()) →
      runOps net (pre ++ s) ((List.range' pre.length s.length).map (fun k => .one i k v cfg)) = some (pre ++ s') := by
  intro s
  induction s with
  | nil => intro pre s' h; cases h; simp [runOps]
  | cons sc rest ih =>
    intro pre s' h
    simp only [setLoop] at h
    split at h
    · rename_i hr
      obtain ⟨q, o, hq⟩ : ∃ q o, setLoop p i v cfg rest = (q, o) := ⟨_, _, rfl⟩
      rw [hq] at h
      cases h
      have he : exec net (pre ++ sc :: rest) (.one i pre.length v cfg) =
          (pre ++ (setScen p i v cfg sc).1 :: rest, .ok ()) := by
        simp [exec, setOne, hp, hv, hr]
      have h' := ih (pre ++ [(setScen p i v cfg sc).1]) q hq
      simp only [List.length_append, List.length_singleton, List.append_assoc, List.singleton_append] at h'
      simp only [List.length_cons, List.range'_succ, List.map_cons, runOps, he]
      exact h'
    · rename_i hr
      exact absurd (congrArg Prod.snd h) hr

/-- Setting values for all scenarios at once, when it succeeds, is setting them for each in turn. -/
theorem C39_all_is_each {net : List Param} {i : Nat} {v : Vals} {cfg : Config} {s s' : List Scen}
    (h : exec net s (.all i v cfg) = (s', .ok ())) :
    runOps net s ((List.range s.length).map (fun k => .one i k v cfg)) = some s' := by
  simp only [exec, setAll] at h
  split at h
  · cases h
  · rename_i p hp
    split at h
    · rename_i hv
      have := setLoop_each hp hv s [] s' h
      simpa [List.range_eq_range'] using this
    · cases h

private theorem setOne_other {net : List Param} {i k i' k' : Nat} {v v' : Vals} {cfg cfg' : Config}
    {s : List Scen} (hd : i ≠ i' ∨ k ≠ k') :
    (exec net (exec net s (.one i k v cfg)).1 (.one i' k' v' cfg')).2 = (exec net s (.one i' k' v' cfg')).2 ∧
    (exec net (exec net s (.one i k v cfg)).1 (.one i' k' v' cfg')).1 =
      (exec net (exec net s (.one i' k' v' cfg')).1 (.one i k v cfg)).1 := by
  simp only [exec, setOne]
  cases hp : net[i]? with
  | none => cases hp' : net[i']? <;> simp
  | some p =>
    cases hp' : net[i']? with
    | none => simp
    | some p' =>
      simp only
      cases hv : p.isVariable v.which <;> cases hv' : p'.isVariable v'.which <;> simp
      cases hk : s[k]? with
      | none =>
        cases hk' : s[k']? with
        | none => simp [hk]
        | some sc' =>
          have : k ≠ k' := by rintro rfl; rw [hk] at hk'; cases hk'
          simp [hk, this.symm]
      | some sc =>
        cases hk' : s[k']? with
        | none =>
          have : k ≠ k' := by rintro rfl; rw [hk] at hk'; cases hk'
          simp [hk, hk', this]
        | some sc' =>
          by_cases hkk : k = k'
          · subst hkk
            rw [hk] at hk'; cases hk'
            have hi : i ≠ i' := hd.resolve_right (by simp)
            have hl : k < s.length := (List.getElem?_eq_some_iff.1 hk).1
            simp only [List.getElem?_set, hl, if_true]
            simp only [setScen]
            cases h1 : sc.internals[i]? <;> cases h2 : sc.internals[i']? <;>
              simp [h1, h2, hi, hi.symm]
            exact congrArg _ (congrArg (Scen.mk · _) (List.set_comm _ _ hi))
          · simp [hk, hk', hkk, Ne.symm hkk]
            exact List.set_comm _ _ hkk

/-- The order of two sets of different parameters, or in different scenarios, does not matter. -/
theorem C39_order {net : List Param} {i k i' k' : Nat} {v v' : Vals} {cfg cfg' : Config} {s : List Scen}
    (hd : i ≠ i' ∨ k ≠ k') :
    runOps net s [.one i k v cfg, .one i' k' v' cfg'] = runOps net s [.one i' k' v' cfg', .one i k v cfg] := by
  obtain ⟨h1, h2⟩ := setOne_other (net := net) (v := v) (v' := v') (cfg := cfg) (cfg' := cfg') (s := s) hd
  have h3 := (setOne_other (net := net) (v := v') (v' := v) (cfg := cfg') (cfg' := cfg) (s := s)
    (hd.imp Ne.symm Ne.symm)).1
  obtain ⟨a, oa, ha⟩ : ∃ a oa, exec net s (.one i k v cfg) = (a, oa) := ⟨_, _, rfl⟩
  obtain ⟨b, ob, hb⟩ : ∃ b ob, exec net s (.one i' k' v' cfg') = (b, ob) := ⟨_, _, rfl⟩
  obtain ⟨a', oa', ha'⟩ : ∃ c o, exec net a (.one i' k' v' cfg') = (c, o) := ⟨_, _, rfl⟩
  obtain ⟨b', ob', hb'⟩ : ∃ c o, exec net b (.one i k v cfg) = (c, o) := ⟨_, _, rfl⟩
  rw [ha, hb] at h1 h2
  rw [hb, ha] at h3
  simp only [ha', hb'] at h1 h2 h3
  subst h1 h2 h3
  cases oa' <;> cases ob' <;> simp [runOps, ha, hb, ha', hb']

/-! ## Single values -/

/-- A value within the bounds of the unit activation function is read back exactly. -/
theorem C39_unit_partial {net : List Param} {n i k : Nat} {ops : List Op} {op : Op} {s : List Scen}
    {c x lo hi : ℚ} (h : Reached net n (ops ++ [op]) s) (hp : net[i]? = some (.constant c)) (hk : k < n)
    (hop : op.addresses i k = some (.f [x], .activation (.unit lo hi))) (hlo : lo ≤ x) (hhi : x ≤ hi) :
    getOne net i k .f s = .ok (some (.f [x])) := by
  obtain ⟨l, h1, h2⟩ := C39_read_back h hp hk (w := .f) rfl (by intro o; simp)
  have ha : Activation.apply (.unit lo hi) x = .ok x := by
    have h3 : ¬ x < lo := not_lt.2 hlo
    have h4 : ¬ hi < x := not_lt.2 hhi
    simp [Activation.apply, clamp, Activation.lower, Activation.upper, hlo.trans hhi, h3, h4]
  have hacc : Accepted (.constant c) (.f [x]) (.activation (.unit lo hi)) (.f [x]) := .constant c x x _ ((apply_iff _ _ _).1 ha)
  rw [h2]
  generalize he : ops ++ [op] = ops' at h1
  cases h1 with
  | nil => simp at he
  | other op' h' hop' =>
    obtain ⟨rfl, rfl⟩ := List.append_singleton_inj.1 he; rw [hop] at hop'; cases hop'
  | rejected op' v₂ cfg₂ h' hop' ha' =>
    obtain ⟨rfl, rfl⟩ := List.append_singleton_inj.1 he; rw [hop] at hop'; cases hop'
    exact absurd hacc (ha' _)
  | accepted op' v₂ v₂' cfg₂ h' hop' ha' =>
    obtain ⟨rfl, rfl⟩ := List.append_singleton_inj.1 he; rw [hop] at hop'; cases hop'
    rw [← hacc.unique ha']
    rfl

/-- A network with one parameter of each kind.  The profile is constant, the value of its last point,
and panics if two points share their day. -/
def net₀ : List Param :=
  [.constant 1, .offset 2,
    .rbf [(10, 4), (20, 5)] (fun ps => if (ps.map Prod.fst).Nodup then
      some (fun day => (ps.getLast?.map Prod.snd).getD 0 + day) else none),
    .other (fun _ => 7)]

/-- A history of settings, one of which fails. -/
def history₀ : List Op :=
  [.all 0 (.f [3]) (.activation (.unit 0 10)), .one 2 1 (.f [8, 9]) .rbf, .all 2 (.f [1]) .rbf,
    .one 2 0 (.u [11, 12]) .rbf]

def start (net : List Param) (n : Nat) : List Scen :=
  match setupAll net n with
  | .ok s => s
  | _ => []

def after (net : List Param) (n : Nat) (ops : List Op) : List Scen :=
  (runOps net (start net n) ops).getD []

theorem reached₀ : Reached net₀ 2 history₀ (after net₀ 2 history₀) :=
  ⟨start net₀ 2, rfl, rfl⟩

/-- Values, days and failing sets, in two scenarios. -/
example : getOne net₀ 0 1 .f (after net₀ 2 history₀) = .ok (some (.f [3])) ∧
    getOne net₀ 2 1 .f (after net₀ 2 history₀) = .ok (some (.f [8, 9])) ∧
    getOne net₀ 2 0 .f (after net₀ 2 history₀) = .ok none ∧
    getOne net₀ 2 0 .u (after net₀ 2 history₀) = .ok (some (.u [11, 12])) ∧
    stepValue net₀ 2 1 0 100 (after net₀ 2 history₀) = .ok 109 ∧
    stepValue net₀ 2 0 0 100 (after net₀ 2 history₀) = .ok 105 := by decide +kernel

/-- Values for both scenarios at once and one after the other; and those of a constant and of a profile in
either order. -/
example : runOps net₀ (start net₀ 2) [.one 0 0 (.f [3]) (.activation (.unit 0 10)), .one 0 1 (.f [3]) (.activation (.unit 0 10))] =
    some (after net₀ 2 (history₀.take 1)) :=
  C39_all_is_each (i := 0) (s := start net₀ 2) (cfg := .activation (.unit 0 10)) rfl

example : getOne net₀ 2 0 .f (after net₀ 2 [.one 2 0 (.f [8, 9]) .rbf, .one 0 0 (.f [3]) (.activation (.unit 0 10))]) =
      .ok (some (.f [8, 9])) ∧
    runOps net₀ (start net₀ 2) [.one 2 0 (.f [8, 9]) .rbf, .one 0 0 (.f [3]) (.activation (.unit 0 10))] =
      runOps net₀ (start net₀ 2) [.one 0 0 (.f [3]) (.activation (.unit 0 10)), .one 2 0 (.f [8, 9]) .rbf] :=
  ⟨by decide +kernel, C39_order (.inl (by decide))⟩

/-- Integers for an offset, in any scenario. -/
example : (∀ k, getOne net₀ 1 k .u (after net₀ 2 history₀) = .error) ∧
    exec net₀ (after net₀ 2 history₀) (.all 1 (.u [3]) .rbf) = (after net₀ 2 history₀, .error) := by
  have h := C39_not_taken (net := net₀) (i := 1) (p := .offset 2) (w := .u) rfl (by rintro ⟨⟩) (after net₀ 2 history₀)
  exact ⟨h.1, h.2 (.all 1 (.u [3]) .rbf) 0 (.u [3]) .rbf rfl rfl⟩

example : getOne net₀ 0 1 .f (after net₀ 2 (history₀.take 1)) = .ok (some (.f [3])) :=
  C39_unit_partial (ops := []) (op := .all 0 (.f [3]) (.activation (.unit 0 10))) (c := 1) (lo := 0) (hi := 10) (n := 2)
    ⟨start net₀ 2, rfl, rfl⟩ rfl (by decide) rfl (by decide) (by decide)

/-- Reading back does not return the value set if the activation function transforms it. -/
theorem C39_read_back_refuted : ∃ (net : List Param) (n : Nat) (op : Op) (s : List Scen) (x : ℚ),
    Reached net n [op] s ∧ op = .all 0 (.f [x]) (.activation (.rectifier 0 100 0)) ∧
    exec net (start net n) op = (s, .ok ()) ∧ getOne net 0 0 .f s ≠ .ok (some (.f [x])) := by
  refine ⟨net₀, 1, .all 0 (.f [1 / 2]) (.activation (.rectifier 0 100 0)), _, 1 / 2, ⟨start net₀ 1, rfl, rfl⟩,
    rfl, rfl, ?_⟩
  decide +kernel

/-- No simulation step ever uses a value set for a constant: all use the original one. -/
theorem C39_constant_never {net : List Param} {n i k : Nat} {ops : List Op} {s : List Scen} {c : ℚ}
    (h : Reached net n ops s) (hp : net[i]? = some (.constant c)) (hk : k < n) :
    ∀ x day, stepValue net i k x day s = .ok c := by
  intro x day
  obtain ⟨s₀, hs₀, hr⟩ := h
  obtain ⟨ht, hlen⟩ := Reached.tracks ⟨s₀, hs₀, hr⟩
  have hks : k < s.length := by omega
  have hc := runOps_consts net ops s₀ s hr
  have hk₀ : (s.map Scen.consts)[k]? = some s[k].consts := by simp [hks]
  unfold setupAll setupScen at hs₀
  cases hsi : setupInternals net with
  | error => rw [hsi] at hs₀; cases hs₀
  | panic => rw [hsi] at hs₀; cases hs₀
  | ok sts =>
    rw [hsi] at hs₀
    cases hs₀
    obtain ⟨h1, h2⟩ := setupInternals_spec hsi
    obtain ⟨st, hst⟩ := getElem?_of_len h1 hp
    have h3 := h2 i _ st hp hst
    cases h3
    have hv : s[k].consts[i]? = some c := by
      rw [hc] at hk₀
      simp only [List.map_replicate] at hk₀
      rw [List.eq_of_mem_replicate (List.mem_of_getElem? hk₀)]
      have hz : (net.zip sts)[i]? = some (.constant c, .value none) :=
        List.getElem?_zip_eq_some.2 ⟨hp, hst⟩
      rw [List.getElem?_map, hz]
      rfl
    unfold stepValue
    simp only [hp, List.getElem?_eq_getElem hks, hv]

/-- The values used by later steps are not the ones set. -/
theorem C39_effect_refuted : ∃ (net : List Param) (n : Nat) (op : Op) (s : List Scen),
    Reached net n [op] s ∧ op = .all 0 (.f [3]) (.activation (.unit 0 10)) ∧
    exec net (start net n) op = (s, .ok ()) ∧ getOne net 0 0 .f s = .ok (some (.f [3])) ∧
    ∀ x day, stepValue net 0 0 x day s = .ok 1 := by
  have hr : Reached net₀ 1 [.all 0 (.f [3]) (.activation (.unit 0 10))]
      (after net₀ 1 [.all 0 (.f [3]) (.activation (.unit 0 10))]) := ⟨start net₀ 1, rfl, rfl⟩
  exact ⟨net₀, 1, _, _, hr, rfl, rfl, by decide +kernel,
    C39_constant_never hr (i := 0) (k := 0) rfl (by decide)⟩

/-- An offset parameter cannot be evaluated, read or set: each panics, after any history. -/
theorem C39_offset_refuted {net : List Param} {n i k : Nat} {ops : List Op} {s : List Scen} {o : ℚ}
    (h : Reached net n ops s) (hp : net[i]? = some (.offset o)) (hk : k < n) :
    (∀ x day, stepValue net i k x day s = .panic) ∧ getOne net i k .f s = .panic ∧
      ∀ x a, (exec net s (.one i k (.f [x]) (.activation a))).2 = .panic := by
  obtain ⟨sc, st, l, h1, h2, h3, h4⟩ := locate h hp hk
  cases st with
  | value v => obtain ⟨⟨_, h4⟩, -⟩ := h4; cases h4
  | rbf a b c => obtain ⟨_, _, h4, -⟩ := h4; cases h4
  | none =>
    refine ⟨?_, ?_, ?_⟩
    · intro x day
      unfold stepValue
      simp only [hp, h1, h2]
    · unfold getOne
      simp only [hp, h1, h2]
      rfl
    · intro x a
      simp only [exec, setOne, hp, h1]
      rw [setScen_eq h2]
      rfl

example : net₀[1]? = some (.offset 2) ∧
    stepValue net₀ 1 0 5 100 (after net₀ 2 history₀) = .panic := by
  exact ⟨rfl, (C39_offset_refuted (n := 2) (i := 1) (k := 0) reached₀ rfl (by decide)).1 5 100⟩

end Verif.Variables
