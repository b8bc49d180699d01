import Verif.Lemmas.V1Owned

/-! # What every step of the conversion keeps -/

namespace Verif.V1

/-- A property of the data that the elementary steps keep. -/
structure Kept (P : Data → Prop) : Prop where
  count : ∀ d n, P d → P { d with count := n }
  push : ∀ d c, P d → P { d with parameters := d.parameters ++ [c] }
  series : ∀ d s, P d → (d.timeseries.any fun t => t.name == s.name) = false →
    P { d with timeseries := d.timeseries ++ [s] }

variable {P : Data → Prop}

theorem convMeta_kept (hk : Kept P) (md : Meta) (parent : Option String) (d : Data) (h : P d) :
    P (convMeta md parent d).2 := by
  cases md with
  | missing => exact hk.count d _ h
  | given name tags =>
    cases name with
    | none => exact hk.count d _ h
    | some n => exact h

theorem extract_kept (hk : Kept P) (r : Res Definition × Data) (h : P r.2) : P (extract r).2 := by
  obtain ⟨r, d⟩ := r
  cases r with
  | ok o =>
    cases o with
    | parameter c => exact hk.push d c h
    | series o s => exact h
  | err p => exact h
  | panic => exact h

theorem convDataFrame_kept (hk : Kept P) (name : String) (url table column scenario : Option String) (d : Data)
    (h : P d) : P (convDataFrame name url table column scenario d).2 := by
  cases url with
  | none =>
    have : (convDataFrame name none table column scenario d).2 = d := by
      cases table <;> cases column <;> cases scenario <;> rfl
    rwa [this]
  | some u =>
    have : (convDataFrame name (some u) table column scenario d).2 =
        if d.timeseries.any (fun s => s.name == name) then d else { d with timeseries := d.timeseries ++ [⟨name, u⟩] } := by
      cases table <;> cases column <;> cases scenario <;> rfl
    rw [this]
    by_cases ha : d.timeseries.any (fun s => s.name == name) = true
    · rwa [if_pos ha]
    · rw [if_neg ha]
      exact hk.series d ⟨name, u⟩ h (by simpa using ha)

mutual

theorem convValue_kept (hk : Kept P) (index : Bool) (v : Value) (parent : Option String) (d : Data) (h : P d) :
    P (convValue index v parent d).2 := by
  match v with
  | .constant q => simpa only [convValue] using h
  | .reference n => simpa only [convValue] using h
  | .table t ok => simpa only [convValue] using h
  | .inline p => simp only [convValue]; exact extract_kept hk _ (convParam_kept hk p parent d h)

theorem convFields_kept (hk : Kept P) (f : Fields) (name : String) (parent : Option String) (d : Data) (h : P d) :
    P (convFields f name parent d).2 := by
  match f with
  | .done => simpa only [convFields] using h
  | .value attr v rest =>
    have hv := convValue_kept hk false v (parent.or (some name)) d h
    rw [convFields]
    rcases h1 : convValue false v (parent.or (some name)) d with ⟨r, d1⟩
    rw [h1] at hv
    cases r with
    | ok m =>
      have hf := convFields_kept hk rest name parent d1 hv
      simp only
      rcases h2 : convFields rest name parent d1 with ⟨r2, d2⟩
      rw [h2] at hf
      cases r2 <;> exact hf
    | err p => exact hv
    | panic => exact hv
  | .index attr v rest =>
    have hv := convValue_kept hk true v (parent.or (some name)) d h
    rw [convFields]
    rcases h1 : convValue true v (parent.or (some name)) d with ⟨r, d1⟩
    rw [h1] at hv
    cases r with
    | ok m =>
      have hf := convFields_kept hk rest name parent d1 hv
      simp only
      rcases h2 : convFields rest name parent d1 with ⟨r2, d2⟩
      rw [h2] at hf
      cases r2 <;> exact hf
    | err p => exact hv
    | panic => exact hv
  | .node attr target aware rest =>
    have hf := convFields_kept hk rest name parent d h
    rw [convFields]
    rcases h2 : convFields rest name parent d with ⟨r2, d2⟩
    rw [h2] at hf
    cases r2 <;> exact hf
  | .check attr ok why rest =>
    rw [convFields]
    cases ok with
    | true => exact convFields_kept hk rest name parent d h
    | false => exact h

theorem convParam_kept (hk : Kept P) (p : Param) (parent : Option String) (d : Data) (h : P d) :
    P (convParam p parent d).2 := by
  match p with
  | .core ty md f =>
    have hm := convMeta_kept hk md parent d h
    rw [convParam]
    rcases h1 : convMeta md parent d with ⟨r, d1⟩
    rw [h1] at hm
    cases r with
    | ok name =>
      have hf := convFields_kept hk f name parent d1 hm
      simp only
      rcases h2 : convFields f name parent d1 with ⟨r2, d2⟩
      rw [h2] at hf
      cases r2 <;> exact hf
    | err p => exact hm
    | panic => exact hm
  | .controlCurve md storage curves given values =>
    have second : ∀ d', P d' → P (secondCurve md storage curves given parent d').2 := by
      intro d' h
      have hm := convMeta_kept hk md parent d' h
      unfold secondCurve
      rcases h1 : convMeta md parent d' with ⟨r, d1⟩
      rw [h1] at hm
      cases r with
      | ok name =>
        have hf := convFields_kept hk curves name parent d1 hm
        simp only
        rcases h2 : convFields curves name parent d1 with ⟨r2, d2⟩
        rw [h2] at hf
        cases r2 with
        | ok cs => cases given <;> exact hf
        | err p => exact hf
        | panic => exact hf
      | err p => exact hm
      | panic => exact hm
    have first : P (firstCurve md storage curves given values parent d).2 := by
      have hm := convMeta_kept hk md parent d h
      unfold firstCurve
      rcases h1 : convMeta md parent d with ⟨r, d1⟩
      rw [h1] at hm
      cases r with
      | ok name =>
        have hf := convFields_kept hk curves name parent d1 hm
        simp only
        rcases h2 : convFields curves name parent d1 with ⟨r2, d2⟩
        rw [h2] at hf
        cases r2 with
        | ok cs =>
          cases given with
          | false => exact hf
          | true =>
            have hv := convFields_kept hk values name parent d2 hf
            simp only [if_true]
            rcases h3 : convFields values name parent d2 with ⟨r3, d3⟩
            rw [h3] at hv
            cases r3 <;> exact hv
        | err p => exact hf
        | panic => exact hf
      | err p => exact hm
      | panic => exact hm
    rw [convParam_curve_eq]
    rcases h1 : firstCurve md storage curves given values parent d with ⟨r, d1⟩
    rw [h1] at first
    cases r with
    | ok o => exact first
    | err p => exact second d1 first
    | panic => exact first
  | .dataFrame md url table column scenario =>
    have hm := convMeta_kept hk md parent d h
    rw [convParam]
    rcases h1 : convMeta md parent d with ⟨r, d1⟩
    rw [h1] at hm
    cases r with
    | ok name => exact convDataFrame_kept hk name url table column scenario d1 hm
    | err p => exact hm
    | panic => exact hm
  | .refused n why => simpa only [convParam] using h
  | .unimplemented => simpa only [convParam] using h

end

theorem convFactors_kept (hk : Kept P) (vs : List Value) (d : Data) (h : P d) : P (convFactors vs d).2 := by
  induction vs generalizing d with
  | nil => exact h
  | cons v vs ih =>
    have hv := convValue_kept hk false v none d h
    rw [convFactors]
    rcases h1 : convValue false v none d with ⟨r, d1⟩
    rw [h1] at hv
    cases r with
    | ok m =>
      cases m with
      | literal q =>
        have := ih d1 hv
        simp only
        rcases h2 : convFactors vs d1 with ⟨r2, d2⟩
        rw [h2] at this
        cases r2 <;> exact this
      | _ => exact hv
    | err p => exact hv
    | panic => exact hv

theorem convNode_kept (hk : Kept P) (n : Node) (d : Data) (h : P d) : P (convNode n d).2 := by
  cases n with
  | core isVirtual ty name tags f =>
    rw [convNode]
    cases tags with
    | false => exact h
    | true =>
      have hf := convFields_kept hk f name none d h
      simp only [if_true]
      rcases h2 : convFields f name none d with ⟨r2, d2⟩
      rw [h2] at hf
      cases r2 <;> exact hf
  | riverSplit name tags f factors slots =>
    rw [convNode]
    cases tags with
    | false => exact h
    | true =>
      have hf := convFields_kept hk f name none d h
      simp only [if_true]
      rcases h2 : convFields f name none d with ⟨r2, d2⟩
      rw [h2] at hf
      cases r2 with
      | ok as =>
        have hq := convFactors_kept hk factors d2 hf
        simp only
        rcases h3 : convFactors factors d2 with ⟨r3, d3⟩
        rw [h3] at hq
        cases r3 <;> exact hq
      | err p => exact hf
      | panic => exact hf
  | custom n => exact h
  | unimplemented n => exact h

theorem convNodes_kept (hk : Kept P) (ns : List Node) (acc acc' : Nodes) (d d' : Data) (h : P d)
    (hc : convNodes ns acc d = some (acc', d')) : P d' := by
  induction ns generalizing acc d with
  | nil =>
    simp only [convNodes, Option.some.injEq, Prod.mk.injEq] at hc
    rwa [← hc.2]
  | cons n ns ih =>
    have hn := convNode_kept hk n { d with count := 0 } (hk.count d 0 h)
    rw [convNodes] at hc
    rcases hr : convNode n { d with count := 0 } with ⟨r, d1⟩
    rw [hr] at hn hc
    cases r with
    | ok bc =>
      obtain ⟨b, c⟩ := bc
      cases b <;> exact ih _ _ hn hc
    | err p => exact ih _ _ hn hc
    | panic => simp at hc

theorem convParams_kept (hk : Kept P) (ps : List Param) (acc acc' : Params) (d d' : Data) (h : P d)
    (hc : convParams ps acc d = some (acc', d')) : P d' := by
  induction ps generalizing acc d with
  | nil =>
    simp only [convParams, Option.some.injEq, Prod.mk.injEq] at hc
    rwa [← hc.2]
  | cons p ps ih =>
    have hn := convParam_kept hk p none d h
    rw [convParams] at hc
    rcases hr : convParam p none d with ⟨r, d1⟩
    rw [hr] at hn hc
    cases r with
    | ok o => cases o <;> exact ih _ _ hn hc
    | err p => exact ih _ _ hn hc
    | panic => simp at hc

/-- The names of timeseries are distinct. -/
theorem kept_nodup : Kept fun d => (d.timeseries.map Series.name).Nodup where
  count _ _ h := h
  push _ _ h := h
  series d s h hs := by
    rw [List.map_append, List.nodup_append]
    refine ⟨h, by simp, fun a ha b hb hab => ?_⟩
    subst hab
    obtain ⟨t, ht, rfl⟩ := List.mem_map.1 ha
    rw [List.any_eq_false] at hs
    simp only [List.map_cons, List.map_nil, List.mem_singleton] at hb
    exact hs t ht (by simpa using hb)

/-- What is there stays there. -/
theorem kept_mem (d0 : Data) : Kept fun d => d0.parameters ⊆ d.parameters ∧ d0.timeseries ⊆ d.timeseries ∧
    d.virtualNodes = d0.virtualNodes where
  count _ _ h := h
  push d c h := ⟨fun x hx => List.mem_append_left _ (h.1 hx), h.2⟩
  series d s h _ := ⟨h.1, fun x hx => List.mem_append_left _ (h.2.1 hx), h.2.2⟩

theorem convNode_mem (n : Node) (d : Data) : d.parameters ⊆ (convNode n d).2.parameters ∧
    d.timeseries ⊆ (convNode n d).2.timeseries ∧ (convNode n d).2.virtualNodes = d.virtualNodes :=
  convNode_kept (kept_mem d) n d ⟨fun _ h => h, fun _ h => h, rfl⟩

theorem convNodes_mem (ns : List Node) (acc acc' : Nodes) (d d' : Data) (hc : convNodes ns acc d = some (acc', d')) :
    d.parameters ⊆ d'.parameters ∧ d.timeseries ⊆ d'.timeseries ∧ d'.virtualNodes = d.virtualNodes :=
  convNodes_kept (kept_mem d) ns acc acc' d d' ⟨fun _ h => h, fun _ h => h, rfl⟩ hc

theorem convParams_mem (ps : List Param) (acc acc' : Params) (d d' : Data) (hc : convParams ps acc d = some (acc', d')) :
    d.parameters ⊆ d'.parameters ∧ d.timeseries ⊆ d'.timeseries ∧ d'.virtualNodes = d.virtualNodes :=
  convParams_kept (kept_mem d) ps acc acc' d d' ⟨fun _ h => h, fun _ h => h, rfl⟩ hc

/-- The data frames among the parameters leave a timeseries of their name. -/
theorem convParams_series (ps : List Param) (acc acc' : Params) (d d' : Data)
    (hc : convParams ps acc d = some (acc', d')) (p : Param) (hp : p ∈ ps) (hv : p.verdict = .fine) (x u : String)
    (md : Meta) (t c s : Option String) (hx : p.name = some x) (hpe : p = .dataFrame md (some u) t c s) :
    ∃ s ∈ d'.timeseries, s.name = x := by
  induction ps generalizing acc d with
  | nil => cases hp
  | cons q ps ih =>
    rw [convParams] at hc
    rcases List.mem_cons.1 hp with rfl | hp
    · have hn := convParam_as p none d
      rcases hr : convParam p none d with ⟨r, d1⟩
      rw [hr] at hn hc
      rw [hv] at hn
      obtain ⟨o, ho⟩ := hn
      simp only at ho
      subst ho
      obtain ⟨h1, h2⟩ := convParam_ok p none d d1 o hr
      cases o with
      | parameter c =>
        have := (h1 c rfl).1
        rw [hpe] at this
        cases this
      | series n r =>
        obtain ⟨-, -, h3⟩ := (h2 n r rfl).2 x hx
        obtain ⟨s', hs', hs2⟩ := h3 md u t c s hpe
        exact ⟨s', (convParams_mem ps _ _ _ _ hc).2.1 hs', hs2⟩
    · rcases hr : convParam q none d with ⟨r, d1⟩
      rw [hr] at hc
      cases r with
      | ok o => cases o <;> exact ih _ _ hc hp
      | err p => exact ih _ _ hc hp
      | panic => simp at hc

end Verif.V1
