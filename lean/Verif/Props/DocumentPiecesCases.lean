import Verif.Props.DocumentPieces
import Verif.Props.DocumentCases

/-! # A document with a piecewise storage -/

namespace Verif.EndToEnd.PiecesCases

open Verif.State Verif.Solver Verif.Time Verif.Simulation Verif.Coupled
open Verif.Schema (Frag Core Built fragOf coreOf UMetric received sent)
open Verif.Load (named Doc Story SNum)
open Verif.Load.Cases (codeOf codeOf_injective)
open Verif.EndToEnd.Cases (answer ran_of result)

def lake : Schema.PieceStoreN := ⟨.dyn 0, some (.const 2), none, [⟨.const (1 / 4), some (.const (-2))⟩], .proportional (5 / 8)⟩

/-- A river fills a lake of two stores, the lower of which is a quarter of it, and from which a town takes. The room in the lake is a
monthly profile. -/
def net : Schema.Net :=
  { nodes := [⟨"river", .input ⟨some (.const 5), none, none⟩, []⟩, ⟨"lake", .pieceStore lake, []⟩,
      ⟨"town", .output ⟨some (.const 7), none, some (.const (-5))⟩, []⟩]
    virtualNodes := []
    edges := [⟨"river", "lake", none, none⟩, ⟨"lake", "town", none, none⟩] }

/-- The lake with the parameters it makes. -/
def doc : Doc where
  nodes := [⟨"river", [], []⟩,
    ⟨"lake", [.param ⟨"room", none, none⟩, .localParam ⟨"store-00-max-volume", none, none⟩, .localParam ⟨"store-00-prior-max-volume", none, none⟩,
        .localParam ⟨"store-00-min-volume", none, none⟩, .localParam ⟨"store-01-max-volume", none, none⟩,
        .localParam ⟨"store-01-prior-max-volume", none, none⟩, .localParam ⟨"store-01-min-volume", none, none⟩],
      [("store-00-max-volume", .volumeBetween (.param ⟨"room", none, none⟩) (.literal (1 / 4)) (.literal 0)),
        ("store-00-prior-max-volume", .aggregated .sum [] .before),
        ("store-00-min-volume", .difference (.literal 2) (.localParam ⟨"store-00-prior-max-volume", none, none⟩) (.literal 0)
          (.localParam ⟨"store-00-max-volume", none, none⟩)),
        ("store-01-max-volume", .volumeBetween (.param ⟨"room", none, none⟩) (.literal 1) (.literal (1 / 4))),
        ("store-01-prior-max-volume", .aggregated .sum [.localParam ⟨"store-00-max-volume", none, none⟩] .before),
        ("store-01-min-volume", .difference (.literal 2) (.localParam ⟨"store-01-prior-max-volume", none, none⟩) (.literal 0)
          (.localParam ⟨"store-01-max-volume", none, none⟩))]⟩,
    ⟨"town", [], []⟩]
  virtuals := []
  params := [("room", .monthly (.lit [16, 32, 0, 0, 0, 0, 0, 0, 0, 0, 0, 0]) none)]
  outputs := [.component "level", .component "share"]

def D : Document where
  net := net
  doc := doc
  refs r := if r = "level" then .node "lake" (some .volume) else if r = "share" then .node "lake" (some .proportionalVolume) else .node "nowhere" none
  numbers _ p _ := if p = "store-00-max-volume" then 1 else if p = "store-00-prior-max-volume" then 2 else if p = "store-00-min-volume" then 3
    else if p = "store-01-max-volume" then 4 else if p = "store-01-prior-max-volume" then 5 else if p = "store-01-min-volume" then 6 else 9
  licences _ := ⟨.absolute 0, .never, .initial, none, .always, 0, 0⟩

def local' (p : String) := named p (some "lake")

def E : Setting where
  code := codeOf [named "room" none, local' "store-00-max-volume", local' "store-00-prior-max-volume", local' "store-00-min-volume",
    local' "store-01-max-volume", local' "store-01-prior-max-volume", local' "store-01-min-volume"]
  table _ := none
  tableIndex _ := none
  tableList _ := none
  series _ := none
  scenario _ := none
  time k := if k = 0 then ⟨⟨⟨2020, 1, 31⟩, 0⟩, 0, 86400000000000⟩ else ⟨⟨⟨2020, 2, k⟩, 0⟩, k, 86400000000000⟩
  solver t := if t = 0 then answer [2, 0, 5, 7] else answer [0, 0, 5, 7]
  big := f64MAX
  negBig := -f64MAX

/-- It starts with 10 of 16 and loses 2 a day. The share of the second day is that of the maximum of February. -/
theorem runs : ∃ w, D.run E 1 = .ran (.done w [6, 3 / 16]) := ran_of (by decide +kernel)

theorem runs_first : ∃ w, D.run E 0 = .ran (.done w [8, 1 / 2]) := ran_of (by decide +kernel)

theorem D_built : Built D.numbers D.net (fragOf D.numbers D.net) (coreOf D.numbers D.net) :=
  Schema.builtCheck_ok (by decide +kernel)

theorem no_deficit {F : Frag} {C : Core} {c node : String} {f l : Area → Option ℚ} : (D.args E F C).comp c ≠ .ok (.deficit node f l) := by
  intro h
  have key : ∀ r, (D.refs r).metric D.net = .ok (.aggStorageVolume ("lake", some "agg-store")) ∨
      (D.refs r).metric D.net = .ok (.aggStorageProportionalVolume ("lake", some "agg-store")) ∨ ∃ e, (D.refs r).metric D.net = .error e := by
    intro r
    simp only [D]
    split_ifs
    · exact .inl (by decide +kernel)
    · exact .inr (.inl (by decide +kernel))
    · exact .inr (.inr ⟨_, rfl⟩)
  rcases key c with e | e | ⟨_, e⟩
  · rw [comp_eq e] at h
    simp only [found] at h
    split at h <;> cases h
  · rw [comp_eq e] at h
    simp only [found] at h
    split at h <;> cases h
  · exact absurd h (comp_error e)

theorem fit (F : Frag) (C : Core) (h : Built D.numbers D.net F C) (n : Nat) : Fit D E F C n := by
  have hF : F = fragOf D.numbers D.net := by
    have := h.compiled.symm.trans D_built.compiled
    exact Except.ok.inj this
  have hC : C = coreOf D.numbers D.net := by
    have h1 := h.built
    rw [hF] at h1
    exact Except.ok.inj (h1.symm.trans D_built.built)
  have haggs : C.model.aggs = [] := by rw [hC]; decide +kernel
  have hvs : C.model.vs = [] := by rw [hC]; decide +kernel
  constructor
  · constructor
    · intro v hv; cases hv
    · decide +kernel
    · intro n hn; rfl
    · intro c node f l h; rfl
    · intro c c' node f l f' l' h h'
      exact absurd h no_deficit
    · intro s table g hs; cases hs
    · intro s table hs; cases hs
    · intro n hn p hp m ls pr r
      simp only [D, doc, List.mem_cons, List.not_mem_nil, or_false] at hn
      rcases hn with rfl | rfl | rfl
      · simp at hp
      · simp only [List.mem_cons, List.not_mem_nil, or_false] at hp
        rcases hp with rfl | rfl | rfl | rfl | rfl | rfl <;> simp
      · simp at hp
  · exact codeOf_injective _
  · constructor <;> simp [haggs]
  · intro v hv; rw [hvs] at hv; cases hv
  · intro k v hv; rw [hvs] at hv; simp at hv
  · intro a ha; rw [haggs] at ha; cases ha
  · intro t _
    simp only [E]
    split_ifs with h0
    · exact h0.symm
    · rfl
  · intro t _
    simp only [E]
    split_ifs <;> simp [Timestep.days, fractionalDays]
  · intro t _ lp x hx
    have h1 : ∀ l, answer l lp = some x → lp.Feasible x := by
      intro l hl
      unfold answer at hl
      split_ifs at hl with hc
      obtain rfl := Option.some.inj hl
      exact Lp.check_feasible _ _ hc
    simp only [E] at hx
    split_ifs at hx <;> exact h1 _ hx
  · intro k hk; rw [hvs] at hk; cases hk
  · intro k hk; rw [hvs] at hk; cases hk
  · intro k hk; rw [hvs] at hk; cases hk

theorem params_eq : (fragOf D.numbers D.net).params = [("lake", "store-00-max-volume", .volumeBetween (.dyn 0) (some (.const (1 / 4))) none),
    ("lake", "store-00-prior-max-volume", .sum []),
    ("lake", "store-00-min-volume", .difference (.const 2) (.dyn 2) (some (.const 0)) (some (.dyn 1))),
    ("lake", "store-01-max-volume", .volumeBetween (.dyn 0) none (some (.const (1 / 4)))),
    ("lake", "store-01-prior-max-volume", .sum [.dyn 1]),
    ("lake", "store-01-min-volume", .difference (.const 2) (.dyn 5) (some (.const 0)) (some (.dyn 4)))] := by decide +kernel

theorem declares : Declares D (fragOf D.numbers D.net) := by
  intro q hq
  rw [params_eq] at hq
  simp only [List.mem_cons, List.not_mem_nil, or_false] at hq
  rcases hq with rfl | rfl | rfl | rfl | rfl | rfl
  · exact ⟨.volumeBetween (.param ⟨"room", none, none⟩) (.literal (1 / 4)) (.literal 0), by simp [D, doc, Load.Doc.declared],
      ⟨_, _, _, rfl, rfl, rfl, rfl⟩, rfl⟩
  · exact ⟨.aggregated .sum [] .before, by simp [D, doc, Load.Doc.declared], ⟨_, rfl, .nil⟩, rfl⟩
  · exact ⟨.difference (.literal 2) (.localParam ⟨"store-00-prior-max-volume", none, none⟩) (.literal 0)
      (.localParam ⟨"store-00-max-volume", none, none⟩), by simp [D, doc, Load.Doc.declared], ⟨_, _, _, _, _, _, rfl, rfl, rfl, rfl, rfl, rfl, rfl⟩, rfl⟩
  · exact ⟨.volumeBetween (.param ⟨"room", none, none⟩) (.literal 1) (.literal (1 / 4)), by simp [D, doc, Load.Doc.declared],
      ⟨_, _, _, rfl, rfl, rfl, rfl⟩, rfl⟩
  · exact ⟨.aggregated .sum [.localParam ⟨"store-00-max-volume", none, none⟩] .before, by simp [D, doc, Load.Doc.declared],
      ⟨_, rfl, .cons rfl .nil⟩, rfl⟩
  · exact ⟨.difference (.literal 2) (.localParam ⟨"store-01-prior-max-volume", none, none⟩) (.literal 0)
      (.localParam ⟨"store-01-max-volume", none, none⟩), by simp [D, doc, Load.Doc.declared], ⟨_, _, _, _, _, _, rfl, rfl, rfl, rfl, rfl, rfl, rfl⟩, rfl⟩

/-- The theorem on the document: the lake loses 2 on the second day. -/
example : ∃ F C S f st vol, Built D.numbers D.net F C ∧ Happens D E F C 2 S f st ∧
    PieceCourse D E F C 2 S f ⟨"lake", .pieceStore lake, []⟩ lake vol ∧ vol 2 = 6 := by
  obtain ⟨w, hr⟩ := runs
  obtain ⟨F, C, S, f, st, hb, H, ho⟩ := C99_run_partial D E 1 w _ hr fun F C h => fit F C h _
  have hF : F = fragOf D.numbers D.net := Except.ok.inj (hb.compiled.symm.trans D_built.compiled)
  have hx : (⟨"lake", .pieceStore lake, []⟩ : Schema.SNode) ∈ D.net.nodes := by decide +kernel
  have hu : ∀ s table, E.series s = some table → (table.map Prod.fst).Nodup := fun s table h => by cases h
  have hl : PiecesListed D lake := by
    intro id hid
    simp [lake] at hid
    subst hid
    decide +kernel
  obtain ⟨vol, hv⟩ := C99_pieces hb H hx rfl hl (C99_made H hu (hF ▸ declares))
  refine ⟨F, C, S, f, st, vol, hb, H, hv, ?_⟩
  have h3 : SNum (D.args E F C) S .late 1 none (.component "level") 6 := by
    cases ho with | cons h _ => exact h
  exact ((hv.shown "level" (.inl rfl) 1 (by omega) none 6).2.1 h3).symm

end Verif.EndToEnd.PiecesCases
