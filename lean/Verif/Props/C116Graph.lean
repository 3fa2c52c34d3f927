import Verif.Props.C116
import Verif.Model.LRGraph
import Verif.Model.MaxLR
/-!
C116, continued: the L-R graph under renaming of the characters, through every history of calls, and `MaxLRScoreTokenizer`.
-/
namespace Props
open Py Nested

variable {ρ : Char → Char}

/-- the graph with both sides of every edge renamed -/
def renN (ρ : Char → Char) (g : Nested Str) : Nested Str := g.map (fun e => (e.1.map ρ, renD ρ e.2))

theorem get?_renN (h : Renames ρ) (g : Nested Str) (k : Str) : Dict.get? (renN ρ g) (k.map ρ) = (Dict.get? g k).map (renD ρ) := by
  induction g with
  | nil => rfl
  | cons e g ih =>
    show (if e.1.map ρ = k.map ρ then some _ else Dict.get? (renN ρ g) _) = Option.map _ (if e.1 = k then some _ else _)
    by_cases he : e.1 = k
    · rw [if_pos he, if_pos (by rw [he])]; rfl
    · rw [if_neg he, if_neg (fun x => he (h.str x)), ih]

theorem set_renN (h : Renames ρ) (g : Nested Str) (k : Str) (t : Dict Str Int) : Dict.set (renN ρ g) (k.map ρ) (renD ρ t) = renN ρ (Dict.set g k t) := by
  induction g with
  | nil => rfl
  | cons e g ih =>
    show (if e.1.map ρ = k.map ρ then (e.1.map ρ, _) :: renN ρ g else _ :: Dict.set (renN ρ g) _ _) = renN ρ (if e.1 = k then (e.1, t) :: g else (e.1, e.2) :: Dict.set g k t)
    by_cases he : e.1 = k
    · rw [if_pos he, if_pos (by rw [he])]; rfl
    · rw [if_neg he, if_neg (fun x => he (h.str x)), ih]; rfl

theorem erase_renD (h : Renames ρ) {ν : Type} (d : Dict Str ν) (k : Str) : Dict.erase (renD ρ d) (k.map ρ) = renD ρ (Dict.erase d k) := by
  apply filter_keysBy
  intro e
  rw [decide_eq_decide]
  exact not_congr ⟨h.str, fun x => by rw [x]⟩

theorem erase_renN (h : Renames ρ) (g : Nested Str) (k : Str) : Dict.erase (renN ρ g) (k.map ρ) = renN ρ (Dict.erase g k) := by
  unfold Dict.erase renN
  rw [List.filter_map]
  congr 1
  apply List.filter_congr
  intro e _
  simp only [Function.comp]
  rw [decide_eq_decide]
  exact not_congr ⟨h.str, fun x => by rw [x]⟩

theorem row_renN (h : Renames ρ) (g : Nested Str) (k : Str) : row (renN ρ g) (k.map ρ) = renD ρ (row g k) := by
  unfold row
  rw [get?_renN h]
  cases Dict.get? g k <;> rfl

theorem nadd_renN (h : Renames ρ) (g : Nested Str) (a b : Str) (c : Int) : nadd (renN ρ g) (a.map ρ) (b.map ρ) c = renN ρ (nadd g a b c) := by
  unfold nadd
  rw [row_renN h, ← set_renN h]
  congr 1
  show Dict.set _ _ ((Dict.get? (keysBy _ (row g a)) _).getD 0 + c) = _
  rw [get?_keysBy h.strs, set_keysBy h.strs]

theorem renN_eq_nil (g : Nested Str) : renN ρ g = [] ↔ g = [] := by unfold renN; exact List.map_eq_nil_iff

theorem reverse_renN (h : Renames ρ) (g : Nested Str) : LR.reverse (renN ρ g) = renN ρ (LR.reverse g) := by
  have hin : ∀ (l : Str) (t : Dict Str Int) (acc : Nested Str),
      (renD ρ t).foldl (fun rl rc => if rc.1 = [] then rl else nadd rl rc.1 (l.map ρ) rc.2) (renN ρ acc) =
      renN ρ (t.foldl (fun rl rc => if rc.1 = [] then rl else nadd rl rc.1 l rc.2) acc) := by
    intro l t
    induction t with
    | nil => intro acc; rfl
    | cons e t ih =>
      intro acc
      show (renD ρ t).foldl _ (if e.1.map ρ = [] then renN ρ acc else nadd (renN ρ acc) (e.1.map ρ) (l.map ρ) e.2) = _
      rw [List.foldl_cons]
      by_cases he : e.1 = []
      · rw [if_pos he, if_pos (by rw [he]; rfl), ih]
      · rw [if_neg he, if_neg (fun x => he (List.map_eq_nil_iff.1 x)), nadd_renN h, ih]
  have hout : ∀ (g acc : Nested Str),
      (renN ρ g).foldl (fun rl lt => lt.2.foldl (fun rl rc => if rc.1 = [] then rl else nadd rl rc.1 lt.1 rc.2) rl) (renN ρ acc) =
      renN ρ (g.foldl (fun rl lt => lt.2.foldl (fun rl rc => if rc.1 = [] then rl else nadd rl rc.1 lt.1 rc.2) rl) acc) := by
    intro g
    induction g with
    | nil => intro acc; rfl
    | cons e g ih =>
      intro acc
      show (renN ρ g).foldl _ ((renD ρ e.2).foldl (fun rl rc => if rc.1 = [] then rl else nadd rl rc.1 (e.1.map ρ) rc.2) (renN ρ acc)) = _
      rw [hin, ih]; rfl
  exact hout g []

/-- all graphs of the object renamed -/
def renLR (ρ : Char → Char) (s : LR.State) : LR.State := { s with lr := renN ρ s.lr, rl := renN ρ s.rl, origin := s.origin.map (renN ρ) }

theorem splits_map (l r : Int) (w : Str) : LR.splits l r (w.map ρ) = (LR.splits l r w).map (renPair ρ) := by
  unfold LR.splits
  have : (List.range (w.map ρ).length).map (fun i => ((w.map ρ).take (i + 1), (w.map ρ).drop (i + 1))) =
      ((List.range w.length).map (fun i => (w.take (i + 1), w.drop (i + 1)))).map (renPair ρ) := by
    rw [List.map_map, List.length_map]
    apply List.map_congr_left
    intro i _
    simp only [Function.comp, renPair, List.map_take, List.map_drop]
  rw [this, List.filter_map]
  congr 1
  apply List.filter_congr
  intro p _
  simp [renPair]

theorem foldSplits (h : Renames ρ) (wt : Str × Str → Int) (hw : ∀ p, wt (renPair ρ p) = wt p) (ps : List (Str × Str)) (g : Nested Str) :
    (ps.map (renPair ρ)).foldl (fun g p => nadd g p.1 p.2 (wt p)) (renN ρ g) = renN ρ (ps.foldl (fun g p => nadd g p.1 p.2 (wt p)) g) := by
  induction ps generalizing g with
  | nil => rfl
  | cons p ps ih =>
    rw [List.map_cons, List.foldl_cons, List.foldl_cons, ← ih, hw]
    congr 1
    exact nadd_renN h g p.1 p.2 _

theorem ofGraph_map (h : Renames ρ) (g : Nested Str) (l r : Int) : LR.ofGraph (renN ρ g) l r = (LR.ofGraph g l r).map (renLR ρ) := by
  unfold LR.ofGraph LR.checkLrgraph
  by_cases hg : g = []
  · subst hg; rfl
  · rw [if_neg hg, if_neg hg, if_neg (fun x => hg ((renN_eq_nil g).1 x)), if_neg (fun x => hg ((renN_eq_nil g).1 x))]
    dsimp only
    rw [reverse_renN h]; rfl

/-- **C116** the graph built from renamed sentences (or from a renamed graph) is the renamed graph -/
theorem C116_graph_construct (h : Renames ρ) (g : Nested Str) (sents : List Str) (l r : Int) :
    LR.construct (renN ρ g) (sents.map (List.map ρ)) l r = (LR.construct g sents l r).map (renLR ρ) := by
  have hc : LR.constructGraph l r (sents.map (List.map ρ)) = renN ρ (LR.constructGraph l r sents) := by
    unfold LR.constructGraph
    have hin : ∀ (ws : List Str) (g : Nested Str),
        (ws.map (List.map ρ)).foldl (fun g word => (LR.splits l r (strip word)).foldl (fun g p => nadd g p.1 p.2 (p.1.length : Int)) g) (renN ρ g) =
        renN ρ (ws.foldl (fun g word => (LR.splits l r (strip word)).foldl (fun g p => nadd g p.1 p.2 (p.1.length : Int)) g) g) := by
      intro ws
      induction ws with
      | nil => intro g; rfl
      | cons w ws ih =>
        intro g
        rw [List.map_cons, List.foldl_cons, List.foldl_cons, ← ih, strip_map h, splits_map]
        congr 1
        exact foldSplits h (fun p => (p.1.length : Int)) (fun p => by simp [renPair]) _ _
    have hout : ∀ (ss : List Str) (g : Nested Str),
        (ss.map (List.map ρ)).foldl (fun g sent => (splitWs sent).foldl (fun g word => (LR.splits l r (strip word)).foldl (fun g p => nadd g p.1 p.2 (p.1.length : Int)) g) g) (renN ρ g) =
        renN ρ (ss.foldl (fun g sent => (splitWs sent).foldl (fun g word => (LR.splits l r (strip word)).foldl (fun g p => nadd g p.1 p.2 (p.1.length : Int)) g) g) g) := by
      intro ss
      induction ss with
      | nil => intro g; rfl
      | cons s ss ih => intro g; rw [List.map_cons, List.foldl_cons, List.foldl_cons, ← ih, splitWs_map h, hin]
    exact hout sents []
  unfold LR.construct
  by_cases h1 : ¬ l > 1
  · rw [if_pos h1, if_pos h1]; rfl
  rw [if_neg h1, if_neg h1]
  by_cases h2 : ¬ r > 0
  · rw [if_pos h2, if_pos h2]; rfl
  rw [if_neg h2, if_neg h2]
  by_cases h3 : sents = []
  · subst h3
    exact ofGraph_map h g l r
  · rw [if_pos h3, if_pos (fun x => h3 (List.map_eq_nil_iff.1 x))]
    by_cases h4 : g = []
    · subst h4
      show LR.ofGraph _ _ _ = _
      rw [hc, ofGraph_map h]; rfl
    · rw [if_pos h4, if_pos (fun x => h4 ((renN_eq_nil g).1 x))]; rfl

/-- the call with its strings renamed -/
def renOp (ρ : Char → Char) : LR.Op → LR.Op
  | .addPair l r c => .addPair (l.map ρ) (r.map ρ) c
  | .addEojeol w c => .addEojeol (w.map ρ) c
  | .removePair l r c => .removePair (l.map ρ) (r.map ρ) c
  | .removeEojeol w c => .removeEojeol (w.map ρ) c
  | .reset => .reset
  | .freeze => .freeze

theorem bump_map (h : Renames ρ) (g : Nested Str) (a b : Str) (c : Int) : LR.bump (renN ρ g) (a.map ρ) (b.map ρ) c = (LR.bump g a b c).map (renN ρ) := by
  unfold LR.bump
  rw [get?_renN h]
  cases Dict.get? g a with
  | none => rfl
  | some t =>
    dsimp only [Option.map]
    rw [get?_keysBy h.strs]
    cases Dict.get? t b with
    | none => rfl
    | some v =>
      dsimp only
      rw [set_keysBy h.strs, set_renN h]; rfl

theorem lower_map (h : Renames ρ) (g : Nested Str) (a b : Str) (c : Int) : LR.lower (renN ρ g) (a.map ρ) (b.map ρ) c = renN ρ (LR.lower g a b c) := by
  unfold LR.lower
  rw [get?_renN h]
  cases Dict.get? g a with
  | none => rfl
  | some t =>
    dsimp only [Option.map]
    rw [get?_keysBy h.strs]
    cases Dict.get? t b with
    | none => rfl
    | some v =>
      dsimp only
      rw [set_keysBy h.strs, set_renN h, erase_renD h, erase_renN h, set_renN h]
      have : (renD ρ (Dict.erase t b)).length = (Dict.erase t b).length := List.length_map _
      rw [this]
      split
      · split <;> rfl
      · rfl

theorem addPair_map (h : Renames ρ) (s : LR.State) (l r : Str) (c : Int) :
    LR.addPair (renLR ρ s) (l.map ρ) (r.map ρ) c = (renLR ρ (LR.addPair s l r c).1, (LR.addPair s l r c).2) := by
  unfold LR.addPair
  dsimp only [renLR]
  rw [bump_map h]
  cases LR.bump s.lr l r c with
  | error e => rfl
  | ok lr =>
    dsimp only [Except.map]
    rw [bump_map h]
    by_cases hr : r = []
    · rw [if_pos hr, if_pos (by rw [hr]; rfl)]
    · rw [if_neg hr, if_neg (fun x => hr (List.map_eq_nil_iff.1 x))]
      cases LR.bump s.rl r l c <;> rfl

theorem addPairs_map (h : Renames ρ) (c : Int) (ps : List (Str × Str)) (s : LR.State) :
    LR.addPairs (renLR ρ s) c (ps.map (renPair ρ)) = (renLR ρ (LR.addPairs s c ps).1, (LR.addPairs s c ps).2) := by
  induction ps generalizing s with
  | nil => rfl
  | cons p ps ih =>
    rw [List.map_cons, LR.addPairs, LR.addPairs]
    have := addPair_map h s p.1 p.2 c
    rw [show LR.addPair (renLR ρ s) (renPair ρ p).1 (renPair ρ p).2 c = _ from this]
    rcases LR.addPair s p.1 p.2 c with ⟨s', x⟩
    cases x with
    | ok u => exact ih s'
    | error e => rfl

theorem cuts_map (w : Str) : LR.cuts (w.map ρ) = (LR.cuts w).map (renPair ρ) := by
  unfold LR.cuts
  rw [List.map_map, List.length_map]
  apply List.map_congr_left
  intro i _
  simp only [Function.comp, renPair, List.map_take, List.map_drop]

theorem removePair_map (h : Renames ρ) (s : LR.State) (l r : Str) (c : Int) :
    LR.removePair (renLR ρ s) (l.map ρ) (r.map ρ) c = renLR ρ (LR.removePair s l r c) := by
  unfold LR.removePair
  dsimp only [renLR]
  rw [lower_map h, lower_map h]

theorem step_map (h : Renames ρ) (s : LR.State) (op : LR.Op) :
    LR.step (renLR ρ s) (renOp ρ op) = (renLR ρ (LR.step s op).1, (LR.step s op).2) := by
  cases op with
  | addPair l r c => exact addPair_map h s l r c
  | addEojeol w c =>
    show LR.addEojeol _ _ _ = _
    unfold LR.addEojeol
    rw [cuts_map, addPairs_map h]; rfl
  | removePair l r c =>
    show (LR.removePair _ _ _ _, _) = _
    rw [removePair_map h]; rfl
  | removeEojeol w c =>
    show (LR.removeEojeol _ _ _, _) = _
    unfold LR.removeEojeol
    rw [cuts_map]
    have : ∀ (ps : List (Str × Str)) (s : LR.State), (ps.map (renPair ρ)).foldl (fun s p => LR.removePair s p.1 p.2 c) (renLR ρ s) =
        renLR ρ (ps.foldl (fun s p => LR.removePair s p.1 p.2 c) s) := by
      intro ps
      induction ps with
      | nil => intro s; rfl
      | cons p ps ih =>
        intro s
        rw [List.map_cons, List.foldl_cons, List.foldl_cons, ← ih]
        congr 1
        exact removePair_map h s p.1 p.2 c
    rw [this]; rfl
  | reset =>
    show LR.reset _ = (renLR ρ (LR.reset s).1, (LR.reset s).2)
    unfold LR.reset LR.checkLrgraph
    obtain ⟨lr, rl, o, lm, rm⟩ := s
    dsimp only [renLR]
    cases o with
    | none => rfl
    | some g =>
      dsimp only [Option.map]
      by_cases hg : g = []
      · rw [if_pos hg, if_pos ((renN_eq_nil g).2 hg)]
      · rw [if_neg hg, if_neg hg, if_neg (fun x => hg ((renN_eq_nil g).1 x)), if_neg (fun x => hg ((renN_eq_nil g).1 x))]
        dsimp only
        rw [reverse_renN h]
  | freeze => rfl

/-- **C116** through every history of calls the renamed graph goes through the renamed states, and each call raises the same error or none; the rows listed by
    `get_r` and `get_l` are the renamed rows in the same order with the same counts -/
theorem C116_graph_history (h : Renames ρ) (s : LR.State) (ops : List LR.Op) (op : LR.Op) (w : Str) (k : Int) :
    LR.run (renLR ρ s) (ops.map (renOp ρ)) = renLR ρ (LR.run s ops) ∧
    (LR.step (LR.run (renLR ρ s) (ops.map (renOp ρ))) (renOp ρ op)).2 = (LR.step (LR.run s ops) op).2 ∧
    LR.getR (LR.run (renLR ρ s) (ops.map (renOp ρ))) (w.map ρ) k = renD ρ (LR.getR (LR.run s ops) w k) ∧
    LR.getL (LR.run (renLR ρ s) (ops.map (renOp ρ))) (w.map ρ) k = renD ρ (LR.getL (LR.run s ops) w k) := by
  have hr : ∀ (ops : List LR.Op) (s : LR.State), LR.run (renLR ρ s) (ops.map (renOp ρ)) = renLR ρ (LR.run s ops) := by
    intro ops
    unfold LR.run
    induction ops with
    | nil => intro s; rfl
    | cons o ops ih =>
      intro s
      rw [List.map_cons, List.foldl_cons, List.foldl_cons, ← ih, step_map h]
  have ht : ∀ (d : Dict Str Int), LR.topK (sorted LR.countLe (renD ρ d)) k = renD ρ (LR.topK (sorted LR.countLe d) k) := by
    intro d
    unfold renD keysBy LR.topK
    rw [sorted_map]
    have : (fun a b : Str × Int => LR.countLe (a.1.map ρ, a.2) (b.1.map ρ, b.2)) = LR.countLe := rfl
    rw [this]
    split
    · rw [List.map_take]
    · rfl
  rw [hr, step_map h]
  refine ⟨rfl, rfl, ?_, ?_⟩
  · unfold LR.getR
    dsimp only [renLR]
    rw [row_renN h, ht]
  · unfold LR.getL
    dsimp only [renLR]
    rw [row_renN h, ht]

/-- **C116** the graph of a renamed counter is the renamed graph -/
theorem C116_counter_to_graph (h : Renames ρ) (s : EC.State) (l r : Int) (one : Bool) :
    LR.toLrgraph (renEC ρ s) l r one = (LR.toLrgraph s l r one).map (renLR ρ) := by
  unfold LR.toLrgraph
  have : LR.lrOfCounter l r (renEC ρ s).counter = renN ρ (LR.lrOfCounter l r s.counter) := by
    unfold LR.lrOfCounter
    dsimp only [renEC]
    have : ∀ (d : Dict Str Int) (g : Nested Str), (renD ρ d).foldl (fun g ec => (LR.splits l r ec.1).foldl (fun g p => nadd g p.1 p.2 ec.2) g) (renN ρ g) =
        renN ρ (d.foldl (fun g ec => (LR.splits l r ec.1).foldl (fun g p => nadd g p.1 p.2 ec.2) g) g) := by
      intro d
      induction d with
      | nil => intro g; rfl
      | cons e d ih =>
        intro g
        show (renD ρ d).foldl _ ((LR.splits l r (e.1.map ρ)).foldl (fun g p => nadd g p.1 p.2 e.2) (renN ρ g)) = _
        rw [splits_map, foldSplits h (fun _ => e.2) (fun _ => rfl), ih]; rfl
    exact this s.counter []
  rw [this]
  exact C116_graph_construct h _ [] l r

/-! ### `MaxLRScoreTokenizer` -/

/-- the configuration with every word renamed -/
def renConfig (ρ : Char → Char) (g : MaxLR.Config) : MaxLR.Config := { g with Dl := renD ρ g.Dl, Dr := renD ρ g.Dr, Pl := renD ρ g.Pl, Pr := renD ρ g.Pr }

/-- a candidate with its two words renamed -/
def renCand (ρ : Char → Char) (c : MaxLR.Cand) : MaxLR.Cand := { c with l := c.l.map ρ, r := c.r.map ρ }

private theorem mapM_ren' {α β : Type} (g g' : α → PyM β) (fa : α → α) (fb : β → β) (hg : ∀ a, g' (fa a) = (g a).map fb) (l : List α) :
    (l.map fa).mapM g' = (l.mapM g).map (List.map fb) := by
  induction l with
  | nil => rfl
  | cons a l ih =>
    rw [List.map_cons, List.mapM_cons, List.mapM_cons, hg, ih]
    cases g a with
    | error e => rfl
    | ok x => cases l.mapM g <;> rfl

theorem maxLen_map (d : Dict Str Rat) : MaxLR.maxLen (renD ρ d) = MaxLR.maxLen d := by
  unfold MaxLR.maxLen
  show ((d.map _).map _).foldl _ 0 = (d.map _).foldl _ 0
  rw [List.map_map, List.foldl_map, List.foldl_map]
  simp

theorem has_map (h : Renames ρ) (d : Dict Str Rat) (w : Str) : Dict.has (renD ρ d) (w.map ρ) = Dict.has d w := by
  show (Dict.get? _ _).isSome = _
  rw [get?_keysBy h.strs]

theorem initCands_map (h : Renames ρ) (g : MaxLR.Config) (t : Str) : MaxLR.initCands (renConfig ρ g) (t.map ρ) = (MaxLR.initCands g t).map (renCand ρ) := by
  have hl : MaxLR.initL (renConfig ρ g) (t.map ρ) = (MaxLR.initL g t).map (fun x => (x.1.map ρ, x.2)) := by
    unfold MaxLR.initL
    dsimp only [renConfig]
    rw [maxLen_map, List.length_map, List.map_flatMap]
    congr 1
    funext b
    rw [List.map_filterMap]
    congr 1
    funext e
    have e0 := has_map h g.Dl (slice t b e)
    rw [slice_map]
    show (if Dict.has (renD ρ g.Dl) (List.map ρ (slice t b e)) = true then _ else _) = _
    simp only [e0]
    split <;> rfl
  have hlr : MaxLR.initLR (renConfig ρ g) (t.map ρ) = (MaxLR.initLR g t).map (renCand ρ) := by
    unfold MaxLR.initLR
    rw [hl, List.map_flatMap, List.flatMap_map]
    congr 1
    funext x
    obtain ⟨l, b, e, n⟩ := x
    dsimp only [renConfig]
    rw [maxLen_map, List.length_map, List.map_filterMap]
    congr 1
    funext m
    split
    · rfl
    · rw [slice_map]
      show (if List.map ρ (slice t e (e + m)) ≠ [] ∧ Dict.has (renD ρ g.Dr) (List.map ρ (slice t e (e + m))) = false then _ else _) = _
      have hn : (List.map ρ (slice t e (e + m)) ≠ []) = (slice t e (e + m) ≠ []) := by simp
      have e0 := has_map h g.Dr (slice t e (e + m))
      have e1 := getD_map h g.Dr (slice t e (e + m)) 0
      have e2 := getD_map h g.Dl l 0
      simp only [hn, e0]
      split
      · rfl
      · show some (MaxLR.Cand.mk _ _ _ _ _ _ _ _ (Dict.getD (renD ρ g.Dl) (l.map ρ) 0) (Dict.getD (renD ρ g.Dr) ((slice t e (e + m)).map ρ) 0) _) = _
        rw [e1, e2]; rfl
  unfold MaxLR.initCands
  rw [hlr, sorted_map]; rfl

theorem existLonger_map (g : MaxLR.Config) (b : MaxLR.Cand) (cs : List MaxLR.Cand) :
    MaxLR.existLonger (renConfig ρ g) (renCand ρ b) (cs.map (renCand ρ)) = MaxLR.existLonger g b cs := by
  induction cs with
  | nil => rfl
  | cons c cs ih =>
    rw [List.map_cons, MaxLR.existLonger, MaxLR.existLonger, ih]; rfl

theorem removeSubset_map (g : MaxLR.Config) (cs : List MaxLR.Cand) :
    MaxLR.removeSubset (renConfig ρ g) (cs.map (renCand ρ)) = (MaxLR.removeSubset g cs).map (List.map (renCand ρ)) := by
  have : ∀ cs, MaxLR.removeSubsetGo (renConfig ρ g) (cs.map (renCand ρ)) = (MaxLR.removeSubsetGo g cs).map (List.map (renCand ρ)) := by
    intro cs
    induction cs with
    | nil => rfl
    | cons c cs ih =>
      rw [List.map_cons, MaxLR.removeSubsetGo, MaxLR.removeSubsetGo, existLonger_map, ih]
      cases MaxLR.existLonger g c cs with
      | error e => rfl
      | ok b =>
        cases MaxLR.removeSubsetGo g cs with
        | error e => rfl
        | ok rest => cases b <;> rfl
  unfold MaxLR.removeSubset
  rw [sorted_map, this]; rfl

theorem score_map (h : Renames ρ) (g : MaxLR.Config) (cs : List MaxLR.Cand) :
    MaxLR.score (renConfig ρ g) (cs.map (renCand ρ)) = (MaxLR.score g cs).map (renCand ρ) := by
  have hsame : ∀ (scored : List MaxLR.Cand) (w : MaxLR.Cand), MaxLR.secondLast (scored.map (renCand ρ)) (renCand ρ w) = MaxLR.secondLast scored w := by
    intro scored w
    unfold MaxLR.secondLast
    rw [List.any_map]; rfl
  have hov : ∀ (all scored : List MaxLR.Cand) (c : MaxLR.Cand),
      MaxLR.overlapped (renConfig ρ g) (all.map (renCand ρ)) (scored.map (renCand ρ)) (renCand ρ c) = MaxLR.overlapped g all scored c := by
    intro all scored c
    unfold MaxLR.overlapped
    have e1 : (renCand ρ c).p1 = c.p1 := rfl
    have e2 : (renCand ρ c).p2 = c.p2 := rfl
    rw [e1, e2]
    congr 1
    funext b
    rw [List.filter_map, List.any_map]
    have e3 : ((fun w : MaxLR.Cand => decide (w.p0 = b)) ∘ renCand ρ) = fun w : MaxLR.Cand => decide (w.p0 = b) := rfl
    rw [e3]
    congr 1
    funext w
    simp only [Function.comp]
    rw [hsame, show Dict.getD (renConfig ρ g).Pl (renCand ρ w).l 0 = Dict.getD g.Pl w.l 0 from getD_map h g.Pl w.l 0]
    rfl
  have hgo : ∀ (all cs scored : List MaxLR.Cand),
      MaxLR.scoreGo (renConfig ρ g) (all.map (renCand ρ)) (scored.map (renCand ρ)) (cs.map (renCand ρ)) = (MaxLR.scoreGo g all scored cs).map (renCand ρ) := by
    intro all cs
    induction cs with
    | nil => intro scored; rfl
    | cons c cs ih =>
      intro scored
      rw [List.map_cons, MaxLR.scoreGo, MaxLR.scoreGo, hov]
      have e0 : (renCand ρ c).lenR = c.lenR := rfl
      rw [e0]
      split
      · exact ih scored
      · rw [← ih]
        dsimp only
        rw [List.map_append]
        congr 2
        show [MaxLR.Cand.mk _ _ _ _ _ _ _ _ _ _ _] = [MaxLR.Cand.mk _ _ _ _ _ _ _ _ _ _ _]
        have e1 : Dict.getD (renConfig ρ g).Pl (renCand ρ c).l 0 = Dict.getD g.Pl c.l 0 := getD_map h g.Pl c.l 0
        have e2 : Dict.getD (renConfig ρ g).Pr (renCand ρ c).r 0 = Dict.getD g.Pr c.r 0 := getD_map h g.Pr c.r 0
        have e3 : ((renCand ρ c).r = []) = (c.r = []) := by simp [renCand]
        simp only [e1, e2, e3]
        rfl
  unfold MaxLR.score
  rw [sorted_map]
  exact hgo cs _ []

theorem findBest_map (cs : List MaxLR.Cand) : MaxLR.findBest (cs.map (renCand ρ)) = (MaxLR.findBest cs).map (renCand ρ) := by
  have hgo : ∀ (n : Nat) (cs : List MaxLR.Cand), MaxLR.findGo n (cs.map (renCand ρ)) = (MaxLR.findGo n cs).map (renCand ρ) := by
    intro n
    induction n with
    | zero => intro cs; rfl
    | succ n ih =>
      intro cs
      cases cs with
      | nil => rfl
      | cons c cs =>
        rw [List.map_cons, MaxLR.findGo, MaxLR.findGo, List.map_cons, List.filter_map, ih]; rfl
  unfold MaxLR.findBest
  rw [List.length_map, sorted_map, hgo, sorted_map]; rfl

theorem baseSub_map (h : Renames ρ) (g : MaxLR.Config) (t : Str) (b : Nat) :
    MaxLR.baseSub (renConfig ρ g) (t.map ρ) b = (MaxLR.baseSub g t b).map (List.map (renCand ρ)) := by
  unfold MaxLR.baseSub
  rw [show MaxScore.tokenize (renConfig ρ g).Dr 10 0 (t.map ρ) = _ from (C116_max_score h g.Dr 10 0 t).2]
  cases MaxScore.tokenize g.Dr 10 0 t with
  | error e => rfl
  | ok ws =>
    show (ws.map (List.map ρ)).mapM (fun w => if Dict.has (renConfig ρ g).Dr w then (.error .attributeError : PyM MaxLR.Cand) else .ok ⟨w, [], b, b + w.length, b + w.length, w.length, 0, w.length, 0, 0, 0⟩) =
      (ws.mapM (fun w => if Dict.has g.Dr w then (.error .attributeError : PyM MaxLR.Cand) else .ok ⟨w, [], b, b + w.length, b + w.length, w.length, 0, w.length, 0, 0, 0⟩)).map (List.map (renCand ρ))
    induction ws with
    | nil => rfl
    | cons w ws ih =>
      rw [List.map_cons, List.mapM_cons, List.mapM_cons, ih, show Dict.has (renConfig ρ g).Dr (w.map ρ) = _ from has_map h g.Dr w, List.length_map]
      by_cases hh : Dict.has g.Dr w = true
      · rw [if_pos hh, if_pos hh]; rfl
      · rw [if_neg hh, if_neg hh]
        generalize ws.mapM (fun w => if Dict.has g.Dr w then (.error .attributeError : PyM MaxLR.Cand) else .ok ⟨w, [], b, b + w.length, b + w.length, w.length, 0, w.length, 0, 0, 0⟩) = x
        cases x <;> rfl

theorem choosePost_map (h : Renames ρ) (g : MaxLR.Config) (t : Str) (best : List MaxLR.Cand) :
    MaxLR.choosePost (renConfig ρ g) (t.map ρ) (best.map (renCand ρ)) = (MaxLR.choosePost g t best).map (List.map (renCand ρ)) := by
  have h1 : MaxLR.firstSub (renConfig ρ g) (t.map ρ) (best.map (renCand ρ)) = (MaxLR.firstSub g t best).map (List.map (renCand ρ)) := by
    unfold MaxLR.firstSub
    rw [List.head?_map]
    cases best.head? with
    | none => rfl
    | some w =>
      dsimp only [Option.map]
      show (if w.p0 > 0 then MaxLR.baseSub _ (slice _ 0 w.p0) 0 else _) = _
      rw [slice_map, baseSub_map h]
      split <;> rfl
  have h2 : MaxLR.lastSub (renConfig ρ g) (t.map ρ) (best.map (renCand ρ)) = (MaxLR.lastSub g t best).map (List.map (renCand ρ)) := by
    unfold MaxLR.lastSub
    rw [List.getLast?_map]
    cases best.getLast? with
    | none => rfl
    | some w =>
      dsimp only [Option.map]
      show (if w.p1 < (t.map ρ).length then MaxLR.baseSub _ ((t.map ρ).drop w.p1) w.p1 else _) = _
      rw [← List.map_drop, baseSub_map h, List.length_map]
      split <;> rfl
  have h3 : MaxLR.interSubs (renConfig ρ g) (t.map ρ) (best.map (renCand ρ)) = (MaxLR.interSubs g t best).map (List.map (List.map (renCand ρ))) := by
    unfold MaxLR.interSubs
    rw [← List.map_tail, List.zip_map]
    apply mapM_ren'
    rintro ⟨a, b⟩
    show (if a.p2 = b.p0 then _ else MaxLR.baseSub _ (slice _ a.p2 b.p0) a.p2) = _
    rw [slice_map, baseSub_map h]
    split <;> rfl
  unfold MaxLR.choosePost
  by_cases hb : best = []
  · subst hb
    exact baseSub_map h g t 0
  · rw [if_pos hb, if_pos (fun x => hb (List.map_eq_nil_iff.1 x))]
    unfold MaxLR.postprocess
    rw [h1, h2, h3]
    cases MaxLR.firstSub g t best with
    | error e => rfl
    | ok a =>
      cases MaxLR.lastSub g t best with
      | error e => rfl
      | ok b =>
        cases MaxLR.interSubs g t best with
        | error e => rfl
        | ok c =>
          show Except.ok _ = Except.ok _
          congr 1
          rw [← List.map_flatten, ← List.map_append, ← List.map_append, ← List.map_append, sorted_map]; rfl

/-- **C116** `MaxLRScoreTokenizer` with renamed dictionaries gives the renamed tokens with the same tags, or raises the same error -/
theorem C116_max_lr (h : Renames ρ) (g : MaxLR.Config) (s : Str) :
    MaxLR.tokenize (renConfig ρ g) (s.map ρ) = (MaxLR.tokenize g s).map (List.map (fun w => (w.1.map ρ, w.2))) := by
  have he : ∀ t : Str, MaxLR.tokenizeEojeol (renConfig ρ g) (t.map ρ) = (MaxLR.tokenizeEojeol g t).map (List.map (fun w => (w.1.map ρ, w.2))) := by
    intro t
    unfold MaxLR.tokenizeEojeol
    rw [initCands_map h, removeSubset_map]
    cases MaxLR.removeSubset g (MaxLR.initCands g t) with
    | error e => rfl
    | ok cs =>
      show (MaxLR.choosePost _ _ (MaxLR.findBest (MaxLR.score _ (cs.map (renCand ρ)))) >>= _) = ((MaxLR.choosePost g t (MaxLR.findBest (MaxLR.score g cs)) >>= _ : PyM _)).map _
      rw [score_map h, findBest_map, choosePost_map h]
      cases MaxLR.choosePost g t (MaxLR.findBest (MaxLR.score g cs)) with
      | error e => rfl
      | ok post =>
        show Except.ok _ = Except.ok _
        congr 1
        have hf : (post.map (renCand ρ)).flatMap (fun p => [(p.l, MaxLR.Tag.L), (p.r, MaxLR.Tag.R)]) =
            (post.flatMap (fun p => [(p.l, MaxLR.Tag.L), (p.r, MaxLR.Tag.R)])).map (fun w => (w.1.map ρ, w.2)) := by
          induction post with
          | nil => rfl
          | cons p post ih => rw [List.map_cons, List.flatMap_cons, List.flatMap_cons, List.map_append, ih]; rfl
        rw [hf, List.filter_map]
        congr 1
        apply List.filter_congr
        intro w _
        simp
  unfold MaxLR.tokenize
  rw [splitWs_map h]
  have : ((splitWs s).map (List.map ρ)).mapM (MaxLR.tokenizeEojeol (renConfig ρ g)) = ((splitWs s).mapM (MaxLR.tokenizeEojeol g)).map (List.map (List.map (fun w => (w.1.map ρ, w.2)))) := by
    generalize splitWs s = ws
    induction ws with
    | nil => rfl
    | cons w ws ih =>
      rw [List.map_cons, List.mapM_cons, List.mapM_cons, he, ih]
      cases MaxLR.tokenizeEojeol g w with
      | error e => rfl
      | ok x => cases ws.mapM (MaxLR.tokenizeEojeol g) <;> rfl
  rw [this]
  cases (splitWs s).mapM (MaxLR.tokenizeEojeol g) with
  | error e => rfl
  | ok l =>
    show Except.ok _ = Except.ok _
    rw [List.map_flatten]

example : MaxLR.tokenize (renConfig swapTwo (MaxLR.make [("가나".toList, 1)] [("는".toList, 1)] [] [] (3/10) (1/2) (1/2) (3/10))) ("가나는가나".toList.map swapTwo) =
    .ok [("꿈나".toList, .L), ("는".toList, .R), ("꿈나".toList, .L)] := by
  rw [C116_max_lr swapTwo_renames]; decide +kernel
example : (LR.construct [] ["꿈나는 다".toList]).map (fun s => LR.getR s "꿈나".toList) = .ok [("는".toList, 2)] := by
  have := C116_graph_construct swapTwo_renames [] ["가나는 다".toList] 10 9
  rw [show ["가나는 다".toList].map (List.map swapTwo) = ["꿈나는 다".toList] by decide +kernel, show renN swapTwo [] = [] from rfl] at this
  rw [this]; decide +kernel
example : (LR.step (renLR swapTwo {}) (.addPair ("가".toList.map swapTwo) [] 1)).2 = .error .keyError :=
  (C116_graph_history swapTwo_renames {} [] (.addPair "가".toList [] 1) [] 10).2.1

end Props
