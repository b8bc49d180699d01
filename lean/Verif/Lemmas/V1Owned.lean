import Verif.Lemmas.V1Loops
import Verif.Lemmas.V1Names

/-! # The names that the conversion of a component introduces -/

namespace Verif.V1

/-- Distinct names, each written in the component or made up for `b` with a number in a range. -/
def Owned (ex : List String) (b : String) (lo hi : Nat) (ns : List String) : Prop :=
  ns.Nodup ∧ ∀ n ∈ ns, n ∈ ex ∨ ∃ k, lo ≤ k ∧ k < hi ∧ n = madeUp (some b) k

/-- Written names that are distinct and not made up. -/
def Clean (ex : List String) : Prop := ex.Nodup ∧ ∀ n ∈ ex, ∀ parent k, n ≠ madeUp parent k

theorem Clean.sublist {ex ex' : List String} (h : Clean ex) (hs : List.Sublist ex' ex) : Clean ex' :=
  ⟨h.1.sublist hs, fun n hn => h.2 n (hs.subset hn)⟩

theorem Owned.nil {ex : List String} {b : String} {lo hi : Nat} : Owned ex b lo hi [] :=
  ⟨List.nodup_nil, fun n hn => by cases hn⟩

theorem Owned.mono {ex ex' : List String} {b : String} {lo lo' hi hi' : Nat} {ns : List String} (h : Owned ex b lo hi ns)
    (he : ex ⊆ ex') (hl : lo' ≤ lo) (hh : hi ≤ hi') : Owned ex' b lo' hi' ns := by
  refine ⟨h.1, fun n hn => ?_⟩
  rcases h.2 n hn with h1 | ⟨k, h1, h2, h3⟩
  · exact .inl (he h1)
  · exact .inr ⟨k, by omega, by omega, h3⟩

theorem Owned.perm {ex : List String} {b : String} {lo hi : Nat} {ns ns' : List String} (h : Owned ex b lo hi ns)
    (hp : ns.Perm ns') : Owned ex b lo hi ns' :=
  ⟨hp.nodup_iff.1 h.1, fun n hn => h.2 n (hp.mem_iff.2 hn)⟩

theorem Owned.sublist {ex : List String} {b : String} {lo hi : Nat} {ns ns' : List String} (h : Owned ex b lo hi ns)
    (hp : List.Sublist ns' ns) : Owned ex b lo hi ns' :=
  ⟨h.1.sublist hp, fun n hn => h.2 n (hp.subset hn)⟩

theorem Owned.append {ex1 ex2 : List String} {b : String} {lo mid hi : Nat} {ns1 ns2 : List String}
    (h1 : Owned ex1 b lo mid ns1) (h2 : Owned ex2 b mid hi ns2) (hl : lo ≤ mid) (hh : mid ≤ hi)
    (hc : Clean (ex1 ++ ex2)) : Owned (ex1 ++ ex2) b lo hi (ns1 ++ ns2) := by
  refine ⟨List.nodup_append.2 ⟨h1.1, h2.1, fun x hx y hy hxy => ?_⟩, fun n hn => ?_⟩
  · subst hxy
    rcases h1.2 x hx with h3 | ⟨k, h3, h4, h5⟩
    · rcases h2.2 x hy with h6 | ⟨k', h6, h7, h8⟩
      · exact (List.nodup_append.1 hc.1).2.2 x h3 x h6 rfl
      · exact hc.2 x (List.mem_append_left _ h3) _ _ h8
    · rcases h2.2 x hy with h6 | ⟨k', h6, h7, h8⟩
      · exact hc.2 x (List.mem_append_right _ h6) _ _ h5
      · rw [h5] at h8
        have := (madeUp_inj _ _ _ _ h8).2
        omega
  · rcases List.mem_append.1 hn with hn | hn
    · exact (h1.mono (List.subset_append_left _ _) (Nat.le_refl _) hh).2 n hn
    · exact (h2.mono (List.subset_append_right _ _) hl (Nat.le_refl _)).2 n hn

/-- What the conversion of a component does to the data: parameters and timeseries are appended, and their names,
together with others, are owned. -/
def Piece (d d' : Data) (ex : List String) (b : String) (extra : List String) : Prop :=
  ∃ newP newS, d'.parameters = d.parameters ++ newP ∧ d'.timeseries = d.timeseries ++ newS ∧ d.count ≤ d'.count ∧
    d'.virtualNodes = d.virtualNodes ∧
    Owned ex b d.count d'.count (newP.map Component.name ++ newS.map Series.name ++ extra)

theorem Piece.refl {d : Data} {ex : List String} {b : String} : Piece d d ex b [] :=
  ⟨[], [], by simp, by simp, Nat.le_refl _, rfl, .nil⟩

theorem Piece.drop {d d' : Data} {ex : List String} {b : String} {extra : List String} (h : Piece d d' ex b extra) :
    Piece d d' ex b [] := by
  obtain ⟨p, s, h1, h2, h3, h4, h5⟩ := h
  exact ⟨p, s, h1, h2, h3, h4, h5.sublist (by simp)⟩

theorem Piece.mono {d d' : Data} {ex ex' : List String} {b : String} {extra : List String} (h : Piece d d' ex b extra)
    (he : ex ⊆ ex') : Piece d d' ex' b extra := by
  obtain ⟨p, s, h1, h2, h3, h4, h5⟩ := h
  exact ⟨p, s, h1, h2, h3, h4, h5.mono he (Nat.le_refl _) (Nat.le_refl _)⟩

theorem Piece.append {d d1 d' : Data} {ex1 ex2 : List String} {b : String} {extra1 extra2 : List String}
    (h1 : Piece d d1 ex1 b extra1) (h2 : Piece d1 d' ex2 b extra2) (hc : Clean (ex1 ++ ex2)) :
    Piece d d' (ex1 ++ ex2) b (extra1 ++ extra2) := by
  obtain ⟨p, s, a1, a2, a3, a4, a5⟩ := h1
  obtain ⟨p', s', b1, b2, b3, b4, b5⟩ := h2
  refine ⟨p ++ p', s ++ s', by rw [b1, a1, List.append_assoc], by rw [b2, a2, List.append_assoc], by omega,
    by rw [b4, a4], ?_⟩
  refine (a5.append b5 a3 b3 hc).perm ?_
  rw [List.perm_iff_count]
  intro a
  simp only [List.map_append, List.count_append]
  omega

/-- An inline parameter is moved to the data. -/
theorem Piece.push {d d' : Data} {ex : List String} {b : String} {c : Component} (h : Piece d d' ex b [c.name]) :
    Piece d { d' with parameters := d'.parameters ++ [c] } ex b [] := by
  obtain ⟨p, s, a1, a2, a3, a4, a5⟩ := h
  refine ⟨p ++ [c], s, by simp [a1], a2, a3, a4, a5.perm ?_⟩
  rw [List.perm_iff_count]
  intro a
  simp only [List.map_append, List.count_append, List.map_cons, List.map_nil, List.count_nil]
  omega

/-- The names that a definition brings besides those in the data: for a data frame the one of its series is there. -/
def Definition.names : Res Definition → List String
  | .ok (.parameter c) => [c.name]
  | _ => []

theorem convMeta_piece (md : Meta) (parent : Option String) (d : Data) (b : String) (hb : parent.or md.name = some b)
    (hm : md ≠ .missing) :
    Piece d (convMeta md parent d).2 md.name.toList b
      (match (convMeta md parent d).1 with | .ok n => [n] | _ => []) ∧
    (convMeta md parent d).2.parameters = d.parameters ∧ (convMeta md parent d).2.timeseries = d.timeseries ∧
    ∀ n, (convMeta md parent d).1 = .ok n → parent.or (some n) = some b := by
  cases md with
  | missing => exact absurd rfl hm
  | given name tags =>
    cases name with
    | some x =>
      cases tags with
      | false => exact ⟨.refl, rfl, rfl, fun n hn => by simp [convMeta] at hn⟩
      | true =>
        refine ⟨⟨[], [], by simp [convMeta], by simp [convMeta], by simp [convMeta], rfl, ?_⟩, rfl, rfl, fun n hn => ?_⟩
        · refine ⟨by simp [convMeta], fun n hn => .inl ?_⟩
          simpa [convMeta, Meta.name] using hn
        · simp [convMeta] at hn
          subst hn
          exact hb
    | none =>
      simp only [Meta.name, Option.or_none] at hb
      subst hb
      cases tags with
      | false =>
        exact ⟨⟨[], [], by simp [convMeta], by simp [convMeta], by simp [convMeta], rfl, .nil⟩, rfl, rfl,
          fun n hn => by simp [convMeta] at hn⟩
      | true =>
        refine ⟨⟨[], [], by simp [convMeta], by simp [convMeta], by simp [convMeta], rfl, ?_⟩, rfl, rfl,
          fun n hn => rfl⟩
        refine ⟨by simp [convMeta], fun n hn => .inr ⟨d.count, ?_⟩⟩
        simpa [convMeta] using hn

theorem extract_piece (d : Data) (r : Res Definition × Data) (ex : List String) (b : String)
    (h : Piece d r.2 ex b (Definition.names r.1)) : Piece d (extract r).2 ex b [] := by
  obtain ⟨r, d'⟩ := r
  cases r with
  | ok o =>
    cases o with
    | parameter c => exact h.push
    | series o s => exact h
  | err p => exact h
  | panic => exact h

theorem convDataFrame_piece (name : String) (url table column scenario : Option String) (d d0 : Data) (ex : List String)
    (b : String) (h : Piece d0 d ex b [name]) :
    Piece d0 (convDataFrame name url table column scenario d).2 ex b
      (Definition.names (convDataFrame name url table column scenario d).1) := by
  have hnames : Definition.names (convDataFrame name url table column scenario d).1 = [] := by
    cases url <;> cases table <;> cases column <;> cases scenario <;> rfl
  rw [hnames]
  cases url with
  | none =>
    have : (convDataFrame name none table column scenario d).2 = d := by
      cases table <;> cases column <;> cases scenario <;> rfl
    rw [this]
    exact h.drop
  | some u =>
    have : (convDataFrame name (some u) table column scenario d).2 =
        if d.timeseries.any (fun s => s.name == name) then d else { d with timeseries := d.timeseries ++ [⟨name, u⟩] } := by
      cases table <;> cases column <;> cases scenario <;> rfl
    rw [this]
    by_cases ha : d.timeseries.any (fun s => s.name == name) = true
    · rw [if_pos ha]
      exact h.drop
    · rw [if_neg ha]
      obtain ⟨p, s, a1, a2, a3, a4, a5⟩ := h
      exact ⟨p, s ++ [⟨name, u⟩], a1, by simp [a2], a3, a4, a5.perm (by simp)⟩

/-- No names come from metadata as such. -/
theorem convMeta_quiet (md : Meta) (parent : Option String) (d : Data) (b : String) :
    Piece d (convMeta md parent d).2 [] b [] := by
  cases md with
  | missing => exact ⟨[], [], by simp [convMeta], by simp [convMeta], by simp [convMeta], rfl, .nil⟩
  | given name tags =>
    cases name <;> exact ⟨[], [], by simp [convMeta], by simp [convMeta], by simp [convMeta], rfl, .nil⟩

/-- The second attempt to convert a control curve. -/
def secondCurve (md : Meta) (storage : String) (curves : Fields) (given : Bool) (parent : Option String) (d : Data) :
    Res Definition × Data :=
  match convMeta md parent d with
  | (.ok name, d1) =>
    match convFields curves name parent d1 with
    | (.ok cs, d2) =>
      if given then (.err ⟨name, "values", .unexpectedAttribute⟩, d2)
      else
        (.ok (.parameter ⟨"ControlCurveIndex", name, cs ++ [⟨"storage_node", false, nodeMetric d2 storage false⟩]⟩), d2)
    | (.err p, d2) => (.err p, d2)
    | (.panic, d2) => (.panic, d2)
  | (.err p, d1) => (.err p, d1)
  | (.panic, d1) => (.panic, d1)

/-- The first attempt. -/
def firstCurve (md : Meta) (storage : String) (curves : Fields) (given : Bool) (values : Fields) (parent : Option String)
    (d : Data) : Res Definition × Data :=
  match convMeta md parent d with
  | (.ok name, d1) =>
    match convFields curves name parent d1 with
    | (.ok cs, d2) =>
      if given then
        match convFields values name parent d2 with
        | (.ok vs, d3) =>
          (.ok (.parameter ⟨"ControlCurve", name, cs ++ vs ++ [⟨"storage_node", false, nodeMetric d3 storage true⟩]⟩), d3)
        | (.err p, d3) => (.err p, d3)
        | (.panic, d3) => (.panic, d3)
      else (.err ⟨name, "values", .missingAttribute⟩, d2)
    | (.err p, d2) => (.err p, d2)
    | (.panic, d2) => (.panic, d2)
  | (.err p, d1) => (.err p, d1)
  | (.panic, d1) => (.panic, d1)

theorem convParam_curve_eq (md : Meta) (storage : String) (curves : Fields) (given : Bool) (values : Fields)
    (parent : Option String) (d : Data) :
    convParam (.controlCurve md storage curves given values) parent d =
      match firstCurve md storage curves given values parent d with
      | (.err _, d') => secondCurve md storage curves given parent d'
      | r => r := by
  rw [convParam]
  rfl

mutual

theorem convValue_piece (index : Bool) (v : Value) (d : Data) (b : String) (hr : v.regular = true)
    (hc : Clean v.written) : Piece d (convValue index v (some b) d).2 v.written b [] := by
  match v with
  | .constant q => simp only [convValue]; exact .refl
  | .reference n => simp only [convValue]; exact .refl
  | .table t ok => simp only [convValue]; exact .refl
  | .inline p =>
    simp only [convValue]
    exact extract_piece d _ _ b (convParam_piece p (some b) d b rfl (by simpa [Value.regular] using hr)
      (by simpa [Value.written] using hc))

theorem convFields_piece (f : Fields) (name : String) (parent : Option String) (d : Data) (b : String)
    (hb : parent.or (some name) = some b) (hr : f.regular = true) (hc : Clean f.written) :
    Piece d (convFields f name parent d).2 f.written b [] := by
  match f with
  | .done => simp only [convFields]; exact .refl
  | .value attr v rest =>
    simp only [Fields.regular, Bool.and_eq_true] at hr
    simp only [Fields.written] at hc ⊢
    have hv := convValue_piece false v d b hr.1 (hc.sublist (List.sublist_append_left _ _))
    rw [convFields, hb]
    rcases h1 : convValue false v (some b) d with ⟨r, d1⟩
    rw [h1] at hv
    cases r with
    | ok m =>
      have hf := convFields_piece rest name parent d1 b hb hr.2 (hc.sublist (List.sublist_append_right _ _))
      have := hv.append hf hc
      rcases h2 : convFields rest name parent d1 with ⟨r2, d2⟩
      rw [h2] at this
      simp only
      rw [h2]
      cases r2 <;> exact this
    | err p => exact hv.mono (List.subset_append_left _ _)
    | panic => exact hv.mono (List.subset_append_left _ _)
  | .index attr v rest =>
    simp only [Fields.regular, Bool.and_eq_true] at hr
    simp only [Fields.written] at hc ⊢
    have hv := convValue_piece true v d b hr.1 (hc.sublist (List.sublist_append_left _ _))
    rw [convFields, hb]
    rcases h1 : convValue true v (some b) d with ⟨r, d1⟩
    rw [h1] at hv
    cases r with
    | ok m =>
      have hf := convFields_piece rest name parent d1 b hb hr.2 (hc.sublist (List.sublist_append_right _ _))
      have := hv.append hf hc
      rcases h2 : convFields rest name parent d1 with ⟨r2, d2⟩
      rw [h2] at this
      simp only
      rw [h2]
      cases r2 <;> exact this
    | err p => exact hv.mono (List.subset_append_left _ _)
    | panic => exact hv.mono (List.subset_append_left _ _)
  | .node attr target aware rest =>
    simp only [Fields.regular] at hr
    simp only [Fields.written] at hc ⊢
    have hf := convFields_piece rest name parent d b hb hr hc
    rw [convFields]
    rcases h2 : convFields rest name parent d with ⟨r2, d2⟩
    rw [h2] at hf
    cases r2 <;> exact hf
  | .check attr ok why rest =>
    simp only [Fields.regular] at hr
    simp only [Fields.written] at hc ⊢
    rw [convFields]
    cases ok with
    | true => exact convFields_piece rest name parent d b hb hr hc
    | false => exact .refl

theorem convParam_piece (p : Param) (parent : Option String) (d : Data) (b : String) (hb : parent.or p.name = some b)
    (hr : p.regular = true) (hc : Clean p.written) :
    Piece d (convParam p parent d).2 p.written b (Definition.names (convParam p parent d).1) := by
  match p with
  | .core ty md f =>
    simp only [Param.regular, Bool.and_eq_true, bne_iff_ne, ne_eq] at hr
    simp only [Param.written] at hc ⊢
    obtain ⟨hm, -, -, hn⟩ := convMeta_piece md parent d b hb hr.1
    rw [convParam]
    rcases h1 : convMeta md parent d with ⟨r, d1⟩
    rw [h1] at hm hn
    cases r with
    | ok name =>
      have hf := convFields_piece f name parent d1 b (hn name rfl) hr.2 (hc.sublist (List.sublist_append_right _ _))
      have := hm.append hf hc
      rcases h2 : convFields f name parent d1 with ⟨r2, d2⟩
      rw [h2] at this
      simp only
      rw [h2]
      cases r2 with
      | ok as => exact this
      | err p => exact this.drop
      | panic => exact this.drop
    | err p => exact hm.mono (List.subset_append_left _ _)
    | panic => exact hm.mono (List.subset_append_left _ _)
  | .controlCurve md storage curves given values =>
    simp only [Param.regular, Bool.and_eq_true, bne_iff_ne, ne_eq, Bool.or_eq_true, List.isEmpty_iff, beq_iff_eq] at hr
    obtain ⟨⟨⟨hmd, hrc⟩, hrv⟩, honce⟩ := hr
    simp only [Param.written] at hc ⊢
    rw [convParam_curve_eq]
    obtain ⟨hm, -, -, hn⟩ := convMeta_piece md parent d b hb hmd
    have hc2 : Clean (curves.written ++ values.written) := hc.sublist (List.sublist_append_right _ _)
    by_cases hw : curves.written = []
    · have hcc : Clean curves.written := hc2.sublist (List.sublist_append_left _ _)
      have second : ∀ d', Piece d' (secondCurve md storage curves given parent d').2 md.name.toList b
          (Definition.names (secondCurve md storage curves given parent d').1) := by
        intro d'
        obtain ⟨hm, -, -, hn⟩ := convMeta_piece md parent d' b hb hmd
        unfold secondCurve
        rcases h1 : convMeta md parent d' with ⟨r, d1⟩
        rw [h1] at hm hn
        cases r with
        | ok name =>
          have hf := convFields_piece curves name parent d1 b (hn name rfl) hrc hcc
          have := hm.append hf (by rw [hw, List.append_nil]; exact hc.sublist (List.sublist_append_left _ _))
          rw [hw, List.append_nil] at this
          simp only
          rcases h2 : convFields curves name parent d1 with ⟨r2, d2⟩
          rw [h2] at this
          cases r2 with
          | ok cs =>
            cases given with
            | true => exact this.drop
            | false => exact this
          | err p => exact this.drop
          | panic => exact this.drop
        | err p => exact hm
        | panic => exact hm
      -- what the first attempt leaves
      have retry : ∀ d', Piece d d' values.written b [] →
          Piece d (secondCurve md storage curves given parent d').2 (md.name.toList ++ (curves.written ++ values.written)) b
            (Definition.names (secondCurve md storage curves given parent d').1) := by
        intro d' hd'
        have h1 := hd'.append (second d') (by
          have hp : (md.name.toList ++ values.written).Perm (values.written ++ md.name.toList) := List.perm_append_comm
          rw [hw, List.nil_append] at hc
          exact ⟨hp.nodup_iff.1 hc.1, fun n hn => hc.2 n (hp.mem_iff.2 hn)⟩)
        rw [List.nil_append] at h1
        exact h1.mono (by
          intro x hx
          rw [hw, List.nil_append]
          simp only [List.mem_append] at hx ⊢
          exact hx.symm)
      unfold firstCurve
      have hq := convMeta_quiet md parent d b
      rcases h1 : convMeta md parent d with ⟨r, d1⟩
      rw [h1] at hm hn hq
      cases r with
      | ok name =>
        have hf := convFields_piece curves name parent d1 b (hn name rfl) hrc hcc
        simp only
        rcases h2 : convFields curves name parent d1 with ⟨r2, d2⟩
        rw [h2] at hf
        rw [hw] at hf
        have hqf := hq.append hf (by simpa [hw] using hcc)
        rw [List.nil_append] at hqf
        cases r2 with
        | ok cs =>
          cases given with
          | false =>
            have hqf : Piece d d2 [] b [] := hqf
            exact retry d2 (hqf.mono (by simp))
          | true =>
            simp only [if_true]
            have hv := convFields_piece values name parent d2 b (hn name rfl) hrv
              (hc2.sublist (List.sublist_append_right _ _))
            have hall := hm.append (hf.append hv (by simpa [hw] using hc2)) (by simpa [hw] using hc)
            have hqv := hqf.append hv (by simpa [hw] using hc2)
            rcases h3 : convFields values name parent d2 with ⟨r3, d3⟩
            rw [h3] at hall hqv
            cases r3 with
            | ok vs => rw [hw]; exact hall
            | err p => exact retry d3 hqv
            | panic => rw [hw]; exact hall.drop
        | err p => exact retry d2 (Piece.mono (ex := []) hqf (by simp))
        | panic =>
          have := hm.append hf (by rw [List.append_nil]; exact hc.sublist (List.sublist_append_left _ _))
          exact (this.drop.mono (by simp [hw]))
      | err p => exact retry d1 (hq.mono (by simp))
      | panic => exact hm.mono (List.subset_append_left _ _)
    · have honce : (given = true ∧ curves.verdict = .fine) ∧ values.verdict = .fine := by
        rcases honce with h | h
        · exact absurd h hw
        · exact h
      obtain ⟨⟨rfl, hvc⟩, hvv⟩ := honce
      unfold firstCurve
      have hq := convMeta_quiet md parent d b
      rcases h1 : convMeta md parent d with ⟨r, d1⟩
      rw [h1] at hm hn hq
      cases r with
      | ok name =>
        have hf := convFields_piece curves name parent d1 b (hn name rfl) hrc (hc2.sublist (List.sublist_append_left _ _))
        have hfa := convFields_as curves name parent d1
        rw [hvc] at hfa
        obtain ⟨cs, hcs⟩ := hfa
        rcases h2 : convFields curves name parent d1 with ⟨r2, d2⟩
        rw [h2] at hf hcs
        simp only at hcs
        subst hcs
        have hv := convFields_piece values name parent d2 b (hn name rfl) hrv
          (hc2.sublist (List.sublist_append_right _ _))
        have hva := convFields_as values name parent d2
        rw [hvv] at hva
        obtain ⟨vs, hvs⟩ := hva
        rcases h3 : convFields values name parent d2 with ⟨r3, d3⟩
        rw [h3] at hv hvs
        simp only at hvs
        subst hvs
        simp only [h2, if_true, h3]
        exact hm.append (hf.append hv hc2) hc
      | err p =>
        have hmv : md.verdict ≠ .fine := by
          intro hf
          have := (convMeta_as md parent d).1
          rw [hf, h1] at this
          obtain ⟨a, ha⟩ := this
          cases ha
        have hbad : ∀ n d2, convMeta md parent d1 ≠ (.ok n, d2) := by
          intro n d2 he
          have := (convMeta_as md parent d1).1
          rw [he] at this
          cases hw2 : md.verdict with
          | fine => exact hmv hw2
          | wrong a c => rw [hw2] at this; obtain ⟨n, -, hn⟩ := this; cases hn
          | stops => rw [hw2] at this; cases this
        have hq2 := convMeta_quiet md parent d1 b
        have hqq := hq.append hq2 (by exact ⟨List.nodup_nil, fun n hn => by cases hn⟩)
        simp only
        unfold secondCurve
        rcases h2 : convMeta md parent d1 with ⟨r2, d2⟩
        rw [h2] at hqq
        cases r2 with
        | ok n => exact absurd h2 (hbad n d2)
        | err p => exact Piece.mono (ex := []) hqq (by simp)
        | panic => exact Piece.mono (ex := []) hqq (by simp)
      | panic => exact hm.mono (List.subset_append_left _ _)
  | .dataFrame md url table column scenario =>
    simp only [Param.regular, bne_iff_ne, ne_eq] at hr
    simp only [Param.written] at hc ⊢
    obtain ⟨hm, -, -, hn⟩ := convMeta_piece md parent d b hb hr
    rw [convParam]
    rcases h1 : convMeta md parent d with ⟨r, d1⟩
    rw [h1] at hm hn
    cases r with
    | ok name => exact convDataFrame_piece name url table column scenario d1 d _ b hm
    | err p => exact hm
    | panic => exact hm
  | .refused n why => simp only [convParam]; exact .refl
  | .unimplemented => simp only [convParam]; exact .refl

end

end Verif.V1
