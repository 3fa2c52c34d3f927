import Verif.Model.V2Left
import Verif.Props.C54
/-!
C100: `LRNounExtractor_v2.extract` that raises half way.
-/
namespace Props
open Py Nested

/-! ### the two descriptions of `extract` agree -/

private theorem compoundGo_left (pos : List Str) (scores : Dict Str Rat) (ps : Dict Str (Rat × Rat)) (a : V2.Acc) (ws : List (Str × Int)) :
    V2.compoundGo pos scores ps a ws = (match V2.compoundGoLeft pos scores ps a ws with
      | (a, .ok ()) => .ok a
      | (_, .error e) => .error e) := by
  induction ws generalizing a with
  | nil => rfl
  | cons w ws ih =>
    obtain ⟨w, n⟩ := w
    unfold V2.compoundGo V2.compoundGoLeft
    generalize V2.compoundParts pos scores w = x
    match x with
    | .error e => rfl
    | .ok none => exact ih _
    | .ok (some []) => exact ih _
    | .ok (some (q :: qs)) => exact ih _

private theorem finish_left (p : V2.Params) (enum : Nat → List Str → List Str) (s s' : V2.State) (g : LR.State) (nouns : Dict Str (Rat × Rat)) (b : Bool)
    (F : V2.Features) (hF : s'.feats = F) (h0 : s'.numCovered = 0) (hn : s'.numEojeols = s.numEojeols) (hd : s'.decomposer = s.decomposer)
    (hc : s'.components = s.components) :
    V2.finish p enum F s g nouns b = (match V2.finishLeft p enum s' g nouns b with
      | (s, .ok r) => .ok (s, r)
      | (_, .error e) => .error e) := by
  obtain ⟨sf, sl, sc, sn, sd, scc, snn⟩ := s
  obtain ⟨tf, tl, tc, tn, td, tcc, tnn⟩ := s'
  dsimp only at hF h0 hn hd hc
  subst hF h0 hn hd hc
  unfold V2.finish V2.finishLeft
  dsimp only
  cases NounPost.postProcessing tf.pos tf.common g.origin p.postprocessing nouns with
  | error e => rfl
  | ok ns =>
    dsimp only
    unfold V2.checkCovered
    dsimp only
    generalize V2.coverGo tf ns ((LR.reset g).1, 0) (sorted V2.longerLe (Dict.keys (V2.nounCandidates (LR.reset g).1 (enum 1 tf.pos)))) = r
    by_cases h : p.verbose = true ∧ tn = 0
    · rw [if_pos h, if_pos h]
    · rw [if_neg h, if_neg h]

/-- C100: `extract` described with the state it leaves in every case is the `extract` of the other theorems. -/
theorem C100_same (p : V2.Params) (entLt : List Int → Rat → Bool) (enum : Nat → List Str → List Str) (s : V2.State) (m f : Rat) (b : Bool) :
    V2.extract p entLt enum s m f b = (match V2.extractLeft p entLt enum s m f b with
      | (s', .ok r) => .ok (s', r)
      | (_, .error e) => .error e) := by
  obtain ⟨sf, sl, sc, sn, sd, scc, snn⟩ := s
  unfold V2.extract V2.extractLeft
  dsimp only
  cases sl with
  | none => rfl
  | some g =>
    dsimp only
    have hbase : V2.extractBase p entLt enum sf g = (match V2.extractBaseLeft p entLt enum ⟨sf, some g, 0, sn, sd, scc, snn⟩ g with
        | (s', .ok (g, cands)) => .ok (s'.feats, g, cands)
        | (_, .error e) => .error e) ∧
        (V2.extractBaseLeft p entLt enum ⟨sf, some g, 0, sn, sd, scc, snn⟩ g).1.numCovered = 0 ∧
        (V2.extractBaseLeft p entLt enum ⟨sf, some g, 0, sn, sd, scc, snn⟩ g).1.numEojeols = sn ∧
        (V2.extractBaseLeft p entLt enum ⟨sf, some g, 0, sn, sd, scc, snn⟩ g).1.decomposer = sd ∧
        (V2.extractBaseLeft p entLt enum ⟨sf, some g, 0, sn, sd, scc, snn⟩ g).1.components = scc := by
      unfold V2.extractBase V2.extractBaseLeft
      dsimp only
      cases hp : p.extractPosFeature with
      | false => exact ⟨rfl, rfl, rfl, rfl, rfl⟩
      | true =>
        simp only [if_true]
        unfold V2.extractDomainPosFeatures
        dsimp only
        generalize (if Dict.keys (V2.nounCandidates g (enum 0 sf.pos)) = [] then _ else _) = cc
        generalize V2.batchPredicting p sf g cc _ = bb
        cases Josa.extractDomainPosFeatures {} entLt (enum 2) bb.2 (LR.reset bb.1).1 sf.pos [] with
        | error e => exact ⟨rfl, rfl, rfl, rfl, rfl⟩
        | ok found =>
          simp only [if_true]
          cases V2.appendFeatures sf "pos".toList (Dict.keys found) with
          | error e => exact ⟨rfl, rfl, rfl, rfl, rfl⟩
          | ok F => exact ⟨rfl, rfl, rfl, rfl, rfl⟩
    obtain ⟨h1, h2, h3, h4, h5⟩ := hbase
    rw [h1]
    generalize V2.extractBaseLeft p entLt enum ⟨sf, some g, 0, sn, sd, scc, snn⟩ g = X at h2 h3 h4 h5
    obtain ⟨t, x⟩ := X
    dsimp only at h2 h3 h4 h5
    match x with
    | .error e => rfl
    | .ok (g', cands) =>
      dsimp only
      generalize V2.batchPredicting p t.feats g' cands m = bb
      unfold V2.extractCompoundsIf
      cases hc : p.extractCompound with
      | false =>
        simp only [Bool.false_eq_true, if_false]
        exact finish_left p enum _ _ bb.1 _ b t.feats rfl h2 h3 h4 h5
      | true =>
        simp only [if_true]
        unfold V2.extractCompounds V2.extractCompoundsLeft
        dsimp only
        cases bb.1.origin with
        | none => rfl
        | some origin =>
          dsimp only
          rw [compoundGo_left]
          generalize V2.compoundGoLeft t.feats.pos (V2.nounScores bb.2 m) bb.2 _ _ = Y
          obtain ⟨a, y⟩ := Y
          match y with
          | .error e => rfl
          | .ok () =>
            dsimp only [Except.map, Option.getD_some]
            exact finish_left p enum _ _ a.graph _ b t.feats rfl h2 h3 rfl rfl

/-! ### what is left after a raise, whatever the state -/

private theorem sb_refl (g : LR.State) : V2.SameBase g g := ⟨rfl, rfl, rfl⟩

private theorem sb_fold (ws : List (Str × Int)) (w : Str) (g : LR.State) :
    V2.SameBase (ws.foldl (fun g rc => LR.removeEojeol g (w ++ rc.1) rc.2) g) g := by
  induction ws generalizing g with
  | nil => exact sb_refl g
  | cons x ws ih => exact (ih _).trans (V2.sameBase_removeEojeol g _ _)

private theorem sb_batch (p : V2.Params) (F : V2.Features) (m : Rat) (g : LR.State) (d : Dict Str (Rat × Rat)) (ws : List Str) :
    V2.SameBase (V2.batchGo p F m g d ws).1 g := by
  induction ws generalizing g d with
  | nil => exact sb_refl g
  | cons w ws ih =>
    unfold V2.batchGo
    dsimp only
    refine (ih _ _).trans ?_
    split
    · exact sb_fold _ _ _
    · exact sb_refl g

private theorem sb_compound (pos : List Str) (scores : Dict Str Rat) (ps : Dict Str (Rat × Rat)) (a : V2.Acc) (ws : List (Str × Int)) :
    V2.SameBase (V2.compoundGoLeft pos scores ps a ws).1.graph a.graph := by
  induction ws generalizing a with
  | nil => exact sb_refl _
  | cons w ws ih =>
    obtain ⟨w, n⟩ := w
    unfold V2.compoundGoLeft
    generalize V2.compoundParts pos scores w = x
    match x with
    | .error e => exact sb_refl _
    | .ok none => exact ih _
    | .ok (some []) => exact ih _
    | .ok (some (q :: qs)) => exact (ih _).trans (V2.sameBase_removeEojeol a.graph _ _)

private theorem sb_reset (g : LR.State) : V2.SameBase (LR.reset g).1 g := by
  unfold LR.reset
  cases h : g.origin with
  | none => exact sb_refl g
  | some o =>
    dsimp only
    split
    · exact sb_refl g
    · generalize LR.checkLrgraph o = x
      cases x with
      | error e => exact sb_refl g
      | ok x => exact ⟨h.symm, rfl, rfl⟩

private theorem sb_coverRow (F : V2.Features) (w : Str) (rs : List (Str × Int)) (gn : LR.State × Int) :
    V2.SameBase (rs.foldl (fun gn rc => if V2.covers F w rc.1 then (LR.removeEojeol gn.1 (w ++ rc.1) rc.2, gn.2 + rc.2) else gn) gn).1 gn.1 := by
  induction rs generalizing gn with
  | nil => exact sb_refl _
  | cons x rs ih =>
    refine (ih _).trans ?_
    dsimp only
    split
    · exact V2.sameBase_removeEojeol _ _ _
    · exact sb_refl _

private theorem sb_cover (F : V2.Features) (nouns : Dict Str (Rat × Rat)) (gn : LR.State × Int) (ws : List Str) :
    V2.SameBase (V2.coverGo F nouns gn ws).1 gn.1 := by
  induction ws generalizing gn with
  | nil => exact sb_refl _
  | cons w ws ih =>
    unfold V2.coverGo
    refine (ih _).trans ?_
    split
    · exact sb_coverRow F w _ gn
    · exact sb_refl _

private structure Kept (p : V2.Params) (s s' : V2.State) : Prop where
  nouns : s'.nouns = s.nouns
  eojeols : s'.numEojeols = s.numEojeols
  feats : p.extractPosFeature = false → s'.feats = s.feats
  comp : p.extractCompound = false → s'.decomposer = s.decomposer ∧ s'.components = s.components
  graph : ∀ g, s.lrgraph = some g → ∃ g', s'.lrgraph = some g' ∧ V2.SameBase g' g

/-- C100: a call of `extract` that raises, on an extractor in any state. The stored nouns and the number of eojeols are as
    before; so are the features unless features are to be extracted, and what `decompose_compound` uses and the components
    unless compounds are to be extracted; no eojeol counts as covered, unless it is the division of the report that raises. An
    extractor without a graph stays without one; otherwise the graph still has its original (or none, if it was frozen)
    and its limits. -/
theorem C100_kept (p : V2.Params) (entLt : List Int → Rat → Bool) (enum : Nat → List Str → List Str) (s s' : V2.State) (m f : Rat) (b : Bool) (e : PyErr)
    (h : V2.extractLeft p entLt enum s m f b = (s', .error e)) :
    s'.nouns = s.nouns ∧ s'.numEojeols = s.numEojeols ∧ (p.extractPosFeature = false → s'.feats = s.feats) ∧
    (p.extractCompound = false → s'.decomposer = s.decomposer ∧ s'.components = s.components) ∧
    (e ≠ .zeroDivision → s'.numCovered = 0) ∧ (e = .zeroDivision → p.verbose = true ∧ s.numEojeols = 0 ∨ s'.numCovered = 0) ∧
    (s.lrgraph = none → s'.lrgraph = none ∧ e = .attributeError) ∧
    (∀ g, s.lrgraph = some g → ∃ g', s'.lrgraph = some g' ∧ g'.origin = g.origin ∧ g'.lMax = g.lMax ∧ g'.rMax = g.rMax) := by
  suffices H : Kept p s s' ∧ (e ≠ .zeroDivision → s'.numCovered = 0) ∧ (e = .zeroDivision → p.verbose = true ∧ s.numEojeols = 0 ∨ s'.numCovered = 0) ∧
      (s.lrgraph = none → s'.lrgraph = none ∧ e = .attributeError) by
    obtain ⟨⟨a, b, c, d, g⟩, i, j, k⟩ := H
    exact ⟨a, b, c, d, i, j, k, g⟩
  have hfin : ∀ (t : V2.State) (g : LR.State) nouns, t.numCovered = 0 → t.lrgraph = some g →
      ∀ s', V2.finishLeft p enum t g nouns b = (s', .error e) →
      s'.nouns = t.nouns ∧ s'.numEojeols = t.numEojeols ∧ s'.feats = t.feats ∧ s'.decomposer = t.decomposer ∧ s'.components = t.components ∧
      (∃ g', s'.lrgraph = some g' ∧ V2.SameBase g' g) ∧ (s'.numCovered = 0 ∨ e = .zeroDivision ∧ p.verbose = true ∧ t.numEojeols = 0) := by
    intro t g nouns h0 hg s' hs
    unfold V2.finishLeft at hs
    cases hpp : NounPost.postProcessing t.feats.pos t.feats.common g.origin p.postprocessing nouns with
    | error e' =>
      rw [hpp] at hs
      cases hs
      exact ⟨rfl, rfl, rfl, rfl, rfl, ⟨g, hg, sb_refl g⟩, Or.inl h0⟩
    | ok ns =>
      rw [hpp] at hs
      dsimp only at hs
      by_cases hz : p.verbose = true ∧ t.numEojeols = 0
      · rw [if_pos hz] at hs
        cases hs
        exact ⟨rfl, rfl, rfl, rfl, rfl, ⟨_, rfl, (sb_cover _ _ _ _).trans (sb_reset g)⟩, Or.inr ⟨rfl, hz⟩⟩
      · rw [if_neg hz] at hs
        cases hs
  obtain ⟨sf, sl, sc, sn, sd, scc, snn⟩ := s
  unfold V2.extractLeft at h
  dsimp only at h
  cases sl with
  | none =>
    cases h
    exact ⟨⟨rfl, rfl, fun _ => rfl, fun _ => ⟨rfl, rfl⟩, fun g hg => by cases hg⟩, fun _ => rfl, fun _ => Or.inr rfl, fun _ => ⟨rfl, rfl⟩⟩
  | some g =>
    dsimp only at h
    have hb : ∀ t x, V2.extractBaseLeft p entLt enum ⟨sf, some g, 0, sn, sd, scc, snn⟩ g = (t, x) →
        t.nouns = snn ∧ t.numEojeols = sn ∧ (p.extractPosFeature = false → t.feats = sf) ∧ t.decomposer = sd ∧ t.components = scc ∧ t.numCovered = 0 ∧
        (∃ g', t.lrgraph = some g' ∧ V2.SameBase g' g ∧ ∀ y cs, x = .ok (y, cs) → y = g') := by
      intro t x hx
      unfold V2.extractBaseLeft at hx
      dsimp only at hx
      cases hp : p.extractPosFeature with
      | false =>
        rw [hp] at hx
        simp only [Bool.false_eq_true, if_false] at hx
        cases hx
        exact ⟨rfl, rfl, fun _ => rfl, rfl, rfl, rfl, g, rfl, sb_refl g, fun y cs h => by cases h; rfl⟩
      | true =>
        rw [hp] at hx
        simp only [if_true] at hx
        generalize (if Dict.keys (V2.nounCandidates g (enum 0 sf.pos)) = [] then _ else _) = cc at hx
        have hsb := (sb_reset (V2.batchPredicting p sf g cc (3/10)).1).trans (sb_batch p sf (3/10) g [] (sorted V2.longerLe cc))
        generalize V2.batchPredicting p sf g cc (3/10) = bb at hx hsb
        cases hj : Josa.extractDomainPosFeatures {} entLt (enum 2) bb.2 (LR.reset bb.1).1 sf.pos [] with
        | error e' =>
          rw [hj] at hx
          cases hx
          exact ⟨rfl, rfl, fun h => by (cases h), rfl, rfl, rfl, _, rfl, hsb, fun y cs h => by cases h⟩
        | ok found =>
          rw [hj] at hx
          dsimp only at hx
          cases ha : V2.appendFeatures sf "pos".toList (Dict.keys found) with
          | error e' =>
            rw [ha] at hx
            cases hx
            exact ⟨rfl, rfl, fun h => by (cases h), rfl, rfl, rfl, _, rfl, hsb, fun y cs h => by cases h⟩
          | ok F =>
            rw [ha] at hx
            cases hx
            exact ⟨rfl, rfl, fun h => by (cases h), rfl, rfl, rfl, _, rfl, hsb, fun y cs h => by cases h; rfl⟩
    cases hX : V2.extractBaseLeft p entLt enum ⟨sf, some g, 0, sn, sd, scc, snn⟩ g with
    | mk t x =>
      obtain ⟨h1, h2, h3, h4, h5, h6, g1, h7, h8, h9⟩ := hb t x hX
      rw [hX] at h
      match x, h9, h with
      | .error e', _, h =>
        cases h
        exact ⟨⟨h1, h2, h3, fun _ => ⟨h4, h5⟩, fun y hy => by cases hy; exact ⟨g1, h7, h8⟩⟩, fun _ => h6, fun _ => Or.inr h6, fun hn => by cases hn⟩
      | .ok (g2, cands), h9, h =>
        have hg2 := h9 g2 cands rfl
        subst hg2
        dsimp only at h
        have hsb : V2.SameBase (V2.batchPredicting p t.feats g2 cands m).1 g := (sb_batch p t.feats m g2 [] (sorted V2.longerLe cands)).trans h8
        generalize V2.batchPredicting p t.feats g2 cands m = bb at h hsb
        cases hc : p.extractCompound with
        | false =>
          rw [hc] at h
          simp only [Bool.false_eq_true, if_false] at h
          obtain ⟨i1, i2, i3, i4, i5, ⟨g', i6, i7⟩, i8⟩ := hfin { t with lrgraph := some bb.1 } bb.1 _ h6 rfl s' h
          dsimp only at i1 i2 i3 i4 i5 i8
          refine ⟨⟨i1.trans h1, i2.trans h2, fun hp => i3.trans (h3 hp), fun _ => ⟨i4.trans h4, i5.trans h5⟩, fun y hy => by cases hy; exact ⟨g', i6, i7.trans hsb⟩⟩,
            fun hz => ?_, fun hz => ?_, fun hn => by cases hn⟩
          · rcases i8 with h | h
            · exact h
            · exact absurd h.1 hz
          · rcases i8 with h | h
            · exact Or.inr h
            · exact Or.inl ⟨h.2.1, by rw [← h2]; exact h.2.2⟩
        | true =>
          rw [hc] at h
          simp only [if_true] at h
          have hcl : ∀ u y, V2.extractCompoundsLeft { t with lrgraph := some bb.1 } bb.1 bb.2 m = (u, y) →
              u.nouns = snn ∧ u.numEojeols = sn ∧ (p.extractPosFeature = false → u.feats = sf) ∧ u.numCovered = 0 ∧
              ∃ g', u.lrgraph = some g' ∧ V2.SameBase g' g := by
            intro u y hu
            unfold V2.extractCompoundsLeft at hu
            dsimp only at hu
            cases ho : bb.1.origin with
            | none =>
              rw [ho] at hu
              cases hu
              exact ⟨h1, h2, h3, h6, _, rfl, hsb⟩
            | some origin =>
              rw [ho] at hu
              dsimp only at hu
              have hsc := sb_compound t.feats.pos (V2.nounScores bb.2 m) bb.2 { candidates := V2.compoundCandidates origin (V2.nounScores bb.2 m), graph := bb.1 }
                (sorted V2.longerPairLe (V2.compoundCandidates origin (V2.nounScores bb.2 m)))
              generalize V2.compoundGoLeft t.feats.pos (V2.nounScores bb.2 m) bb.2 _ _ = Y at hu hsc
              obtain ⟨a, y'⟩ := Y
              match y', hu with
              | .error e', hu => cases hu; exact ⟨h1, h2, h3, h6, _, rfl, hsc.trans hsb⟩
              | .ok (), hu => cases hu; exact ⟨h1, h2, h3, h6, _, rfl, hsc.trans hsb⟩
          cases hY : V2.extractCompoundsLeft { t with lrgraph := some bb.1 } bb.1 bb.2 m with
          | mk u y =>
            obtain ⟨j1, j2, j3, j4, g3, j5, j6⟩ := hcl u y hY
            rw [hY] at h
            match y, h with
            | .error e', h =>
              cases h
              exact ⟨⟨j1, j2, j3, fun hn => by (rw [hc] at hn; cases hn), fun y hy => by cases hy; exact ⟨g3, j5, j6⟩⟩, fun _ => j4, fun _ => Or.inr j4, fun hn => by cases hn⟩
            | .ok cs, h =>
              dsimp only at h
              rw [j5] at h
              obtain ⟨i1, i2, i3, i4, i5, ⟨g', i6, i7⟩, i8⟩ := hfin u g3 _ j4 j5 s' h
              refine ⟨⟨i1.trans j1, i2.trans j2, fun hp => i3.trans (j3 hp), fun hn => by (rw [hc] at hn; cases hn), fun y hy => by cases hy; exact ⟨g', i6, i7.trans j6⟩⟩,
                fun hz => ?_, fun hz => ?_, fun hn => by cases hn⟩
              · rcases i8 with h | h
                · exact h
                · exact absurd h.1 hz
              · rcases i8 with h | h
                · exact Or.inr h
                · exact Or.inl ⟨h.2.1, by rw [← j2]; exact h.2.2⟩

/-! ### frozen graphs -/

/-- what a batch of predictions leaves of the trained graph: the eojeols no accepted word is split off -/
def V2Unclaimed (p : V2.Params) (c : Dict Str Int) (m : Rat) (d : Dict Str (Rat × Rat)) (g : LR.State) : Prop :=
  ∀ l r n, (r, n) ∈ LR.getR g l (-1) ↔ V2Split p c l r n ∧
    ¬ ∃ w x r' n', Dict.get? d w = some x ∧ m ≤ x.2 ∧ w ++ r' = l ++ r ∧ V2Split p c w r' n'

private theorem cons_freeze {N : Str → Int} {g : LR.State} (h : LR.Cons N g) : LR.Cons N (LR.freeze g) :=
  ⟨⟨h.inv.lr, h.inv.rl, h.inv.tr, fun _ hg => by (cases hg)⟩, h.edge⟩

private theorem reset_frozen {g : LR.State} (h : g.origin = none) : LR.reset g = (g, .ok ()) := by
  unfold LR.reset; rw [h]

/-- C100: `extract` with compounds on an extractor whose trained graph was frozen always raises AttributeError. By then
    the features, the stored nouns and the components are as before, no eojeol counts as covered, `decompose_compound`
    already works with the new predictions (the words of more than one character with a score above `min_noun_score`),
    and the graph has lost every eojeol an accepted word is split off; `reset_lrgraph` does not bring them back. -/
theorem C100_frozen (p : V2.Params) (hx : p.extractCompound = true) (hpf : p.extractPosFeature = false) (s s' : V2.State) (c : EC.State)
    (hw : c.counter.WF) (hp : ∀ kv ∈ c.counter, 0 < kv.2) (hsum : c.countSum = Dict.sumI c.counter)
    (htrain : V2.trainWithEojeolCounter p s c = .ok s') (g : LR.State) (hg : s'.lrgraph = some g)
    (entLt : List Int → Rat → Bool) (enum : Nat → List Str → List Str) (henum : ∀ i l, (enum i l).Perm l) (m f : Rat) (b : Bool) :
    ∃ d g' sc, V2Table p s.feats c.counter m d ∧
      V2.extractLeft p entLt enum { s' with lrgraph := some (LR.freeze g) } m f b =
        ({ s' with lrgraph := some g', numCovered := 0, decomposer := some sc }, .error .attributeError) ∧
      (∀ w y, Dict.get? sc w = some y ↔ y = (w.length : Rat) ∧ 1 < w.length ∧ ∃ x, Dict.get? d w = some x ∧ m < x.2) ∧
      V2Unclaimed p c.counter m d g' ∧ LR.reset g' = (g', .ok ()) := by
  obtain ⟨g0, hg0, hfeat, hnum, hf, hgl⟩ := trained hw hp hsum htrain
  have e : g0 = g := Option.some.inj (hg0.symm.trans hg)
  subst e
  have hc := cons_freeze hf.cons
  have ht := batch_table_cons hw hc hgl s.feats m (enum 0) (henum 0)
  obtain ⟨hcw, _⟩ := V2.mem_nounCandidates hc.inv (enum 0 s.feats.pos)
  obtain ⟨h1, h2, h3⟩ := batch_graph hw hc hgl s.feats m (Dict.keys (V2.nounCandidates (LR.freeze g0) (enum 0 s.feats.pos))) hcw
  have hunf : ∀ bb, V2.batchPredicting p s.feats (LR.freeze g0) (Dict.keys (V2.nounCandidates (LR.freeze g0) (enum 0 s.feats.pos))) m = bb →
      V2.extractLeft p entLt enum { s' with lrgraph := some (LR.freeze g0) } m f b =
        ({ s' with lrgraph := some bb.1, numCovered := 0, decomposer := some (V2.nounScores bb.2 m) }, .error .attributeError) := by
    intro bb hbb
    have ho : bb.1.origin = none := by rw [← hbb, h2]; rfl
    unfold V2.extractLeft V2.extractBaseLeft
    dsimp only
    rw [hpf, hx, hfeat]
    simp only [Bool.false_eq_true, if_false, if_true]
    rw [hbb]
    unfold V2.extractCompoundsLeft
    dsimp only
    rw [ho]
  refine ⟨_, _, _, ht, hunf _ rfl, ?_, ?_, reset_frozen h2⟩
  · have hwf := ht.wf
    generalize (V2.batchPredicting p s.feats (LR.freeze g0) (Dict.keys (V2.nounCandidates (LR.freeze g0) (enum 0 s.feats.pos))) m).2 = d at hwf
    intro w y
    have hwf2 : Dict.WF (V2.nounScores d m) := by
      unfold V2.nounScores Dict.WF Dict.keys
      rw [List.map_map]
      exact (hwf.filter _)
    constructor
    · intro hy
      have := Dict.mem_of_get? hy
      unfold V2.nounScores at this
      obtain ⟨q, hq, he⟩ := List.mem_map.1 this
      obtain ⟨hq1, hq2⟩ := List.mem_filter.1 hq
      obtain ⟨q1, q2⟩ := q
      simp only [Bool.and_eq_true, decide_eq_true_eq] at hq2
      cases he
      exact ⟨rfl, hq2.2, q2, Dict.get?_of_mem hwf hq1, hq2.1⟩
    · rintro ⟨rfl, hl, x, hx', hm⟩
      apply Dict.get?_of_mem hwf2
      unfold V2.nounScores
      refine List.mem_map.2 ⟨(w, x), List.mem_filter.2 ⟨Dict.mem_of_get? hx', ?_⟩, rfl⟩
      simp only [Bool.and_eq_true, decide_eq_true_eq]
      exact ⟨hm, hl⟩
  · intro l r n
    rw [LR.mem_getR_all h1.inv]
    exact h3 l r n

private theorem claim_nothing (q : Str → Str → Bool) (g : LR.State) (ws : List Str) (h : ∀ w ∈ ws, LR.getR g w (-1) = []) :
    LR.claimAll q g ws = (g, ws.map (fun w => (w, 0))) := by
  induction ws with
  | nil => rfl
  | cons w ws ih =>
    unfold LR.claimAll
    rw [h w (by simp)]
    simp only [List.filter_nil, List.foldl_nil, List.map_nil, List.sum_nil, List.map_cons]
    rw [ih (fun v hv => h v (by simp [hv]))]

/-- C100: `extract` without compounds on an extractor whose trained graph was frozen. The nouns are what post-processing
    leaves of the accepted words (it can raise AttributeError, see `C47_nj_frozen`; then nothing is stored), but the
    eojeols of the accepted words are gone for good and the reported coverage is 0. -/
theorem C100_frozen_singles (p : V2.Params) (hx : p.extractCompound = false) (hpf : p.extractPosFeature = false) (s s' : V2.State) (c : EC.State)
    (hw : c.counter.WF) (hp : ∀ kv ∈ c.counter, 0 < kv.2) (hsum : c.countSum = Dict.sumI c.counter)
    (htrain : V2.trainWithEojeolCounter p s c = .ok s') (g : LR.State) (hg : s'.lrgraph = some g)
    (entLt : List Int → Rat → Bool) (enum : Nat → List Str → List Str) (henum : ∀ i l, (enum i l).Perm l) (m f : Rat) (b : Bool) :
    ∃ d g', V2Table p s.feats c.counter m d ∧ V2Unclaimed p c.counter m d g' ∧ LR.reset g' = (g', .ok ()) ∧
      ∀ post : PyM (Dict Str (Rat × Rat)),
        post = NounPost.postProcessing s.feats.pos s.feats.common none p.postprocessing (d.filter (fun e => decide (m ≤ e.2.2) && decide (f ≤ e.2.1))) →
        (∀ e, post = .error e → V2.extractLeft p entLt enum { s' with lrgraph := some (LR.freeze g) } m f b =
          ({ s' with lrgraph := some g', numCovered := 0 }, .error e)) ∧
        (∀ nouns, post = .ok nouns → ¬ (p.verbose = true ∧ Dict.sumI c.counter = 0) →
          V2.extractLeft p entLt enum { s' with lrgraph := some (LR.freeze g) } m f b =
            ({ s' with lrgraph := some g', numCovered := 0, nouns := nouns }, .ok nouns)) := by
  obtain ⟨g0, hg0, hfeat, hnum, hf, hgl⟩ := trained hw hp hsum htrain
  have e : g0 = g := Option.some.inj (hg0.symm.trans hg)
  subst e
  have hc := cons_freeze hf.cons
  have ht := batch_table_cons hw hc hgl s.feats m (enum 0) (henum 0)
  obtain ⟨hcw, _⟩ := V2.mem_nounCandidates hc.inv (enum 0 s.feats.pos)
  obtain ⟨h1, h2, h3⟩ := batch_graph hw hc hgl s.feats m (Dict.keys (V2.nounCandidates (LR.freeze g0) (enum 0 s.feats.pos))) hcw
  obtain ⟨bb, hbb⟩ : ∃ bb, V2.batchPredicting p s.feats (LR.freeze g0) (Dict.keys (V2.nounCandidates (LR.freeze g0) (enum 0 s.feats.pos))) m = bb := ⟨_, rfl⟩
  rw [hbb] at ht h1 h2 h3
  have hun : V2Unclaimed p c.counter m bb.2 bb.1 := by
    intro l r n
    rw [LR.mem_getR_all h1.inv]
    exact h3 l r n
  have ho : bb.1.origin = none := h2
  refine ⟨bb.2, bb.1, ht, hun, reset_frozen h2, ?_⟩
  have hcomb : V2.combine bb.2 [] m f = bb.2.filter (fun e => decide (m ≤ e.2.2) && decide (f ≤ e.2.1)) := by
    unfold V2.combine V2.updateDict
    rw [List.foldl_nil, List.filter_filter]
    congr 1
    funext e
    rw [Bool.and_comm]
  intro post hpost
  have hunf : V2.extractLeft p entLt enum { s' with lrgraph := some (LR.freeze g0) } m f b =
      V2.finishLeft p enum { s' with lrgraph := some bb.1, numCovered := 0 } bb.1 (bb.2.filter (fun e => decide (m ≤ e.2.2) && decide (f ≤ e.2.1))) b := by
    unfold V2.extractLeft V2.extractBaseLeft
    dsimp only
    rw [hpf, hx, hfeat]
    simp only [Bool.false_eq_true, if_false]
    rw [hbb, hcomb]
  rw [hunf]
  unfold V2.finishLeft
  dsimp only
  rw [ho, hfeat, ← hpost]
  constructor
  · intro e he
    rw [he]
  · intro nouns hn hz
    rw [hn]
    dsimp only
    rw [reset_frozen ho]
    dsimp only
    have hsub : nouns.Sublist (bb.2.filter (fun e => decide (m ≤ e.2.2) && decide (f ≤ e.2.1))) :=
      C47_pipeline_only_removes _ _ _ _ _ _ (hpost.symm.trans hn)
    rw [V2.coverGo_eq, claim_nothing]
    · simp only [List.map_map, Function.comp_def]
      rw [show ∀ l : List Str, (l.map (fun _ => (0 : Int))).sum = 0 from fun l => by induction l <;> simp_all]
      rw [hnum, if_neg hz, Int.add_zero, reset_frozen ho]
      simp only [ite_self]
    · intro w hwm
      obtain ⟨_, hh⟩ := List.mem_filter.1 hwm
      have hk := (Dict.isSome_get?_iff _ _).1 hh
      obtain ⟨⟨w', x⟩, hm', rfl⟩ := List.mem_map.1 hk
      obtain ⟨hm1, hm2⟩ := List.mem_filter.1 (hsub.subset hm')
      simp only [Bool.and_eq_true, decide_eq_true_eq] at hm2
      by_contra hne
      obtain ⟨⟨r, n⟩, hr⟩ := List.exists_mem_of_ne_nil _ hne
      obtain ⟨hs1, hs2⟩ := (hun w' r n).1 hr
      exact hs2 ⟨w', x, r, n, Dict.get?_of_mem ht.wf hm1, hm2.1, rfl, hs1⟩

/-! ### no eojeol -/

/-- C100: an extractor trained again, on a corpus without any eojeol (or with none frequent enough). Reporting the
    coverage divides by zero: `extract` raises, and the nouns of the earlier extraction are still stored, though the
    graph is that of the new corpus. Without messages (`verbose=False`) it returns no noun and stores that. -/
theorem C100_empty (p : V2.Params) (s s' : V2.State) (c : EC.State) (hc : c.counter = []) (hsum : c.countSum = Dict.sumI c.counter)
    (htrain : V2.trainWithEojeolCounter p s c = .ok s')
    (entLt : List Int → Rat → Bool) (enum : Nat → List Str → List Str) (henum : ∀ i l, (enum i l).Perm l) (m f : Rat) (b : Bool) :
    (p.verbose = true → ∃ t, V2.extractLeft p entLt enum s' m f b = (t, .error .zeroDivision) ∧ t.nouns = s.nouns ∧ t.lrgraph.isSome = true ∧
      ∀ g, t.lrgraph = some g → g.origin = some []) ∧
    (p.verbose = false → ∃ t, V2.extractLeft p entLt enum s' m f b = (t, .ok []) ∧ t.nouns = [] ∧ t.numCovered = 0) := by
  have hw : c.counter.WF := by rw [hc]; exact Dict.wf_nil
  have hp : ∀ kv ∈ c.counter, 0 < kv.2 := by rw [hc]; simp
  have hnn : s'.nouns = s.nouns := by
    unfold V2.trainWithEojeolCounter V2.trainWithLrgraph at htrain
    cases h1 : LR.toLrgraph c p.maxLeft p.maxRight with
    | error e => rw [h1] at htrain; cases htrain
    | ok g =>
      rw [h1] at htrain
      dsimp only at htrain
      rw [hsum, hc] at htrain
      rw [if_neg (by decide)] at htrain
      cases htrain; rfl
  have hs0 : Dict.sumI c.counter = 0 := by rw [hc]; rfl
  obtain ⟨g0, hg0, _, _, hf, hgl⟩ := trained hw hp hsum htrain
  obtain ⟨d, g, hg, htab, hmain⟩ := C54_extract p s s' c hw hp hsum htrain entLt enum henum m f b
  have e : g0 = g := Option.some.inj (hg0.symm.trans hg)
  subst e
  have hlr : g0.lr = [] := by rw [hgl, hc]; rfl
  have hd : d = [] := by
    cases hk : Dict.keys d with
    | nil => exact List.map_eq_nil_iff.1 hk
    | cons w ws =>
      have : w ∈ Dict.keys d := by rw [hk]; simp
      obtain ⟨r, n, _, _, hsp⟩ := (htab.cands w).1 this
      have := hsp.2.2.2
      rw [hc] at this
      cases this
  have hcomp : (if p.extractCompound then (V2.extractCompounds s.feats g0 d m).map (·.compounds) else .ok []) = (.ok [] : PyM (Dict Str (Rat × Rat))) := by
    split
    · unfold V2.extractCompounds
      rw [hf.origin, hlr, hd]
      rfl
    · rfl
  obtain ⟨_, hz, hok⟩ := hmain _ rfl
  constructor
  · intro hv
    have hx := hz [] hcomp hv hs0
    rw [C100_same] at hx
    cases hY : V2.extractLeft p entLt enum s' m f b with
    | mk t y =>
      rw [hY] at hx
      match y, hx, hY with
      | .ok r, hx, _ => cases hx
      | .error e, hx, hY =>
        cases hx
        obtain ⟨k1, _, _, _, _, _, _, k2⟩ := C100_kept p entLt enum s' t m f b _ hY
        obtain ⟨g', h1, h2, _⟩ := k2 g0 hg
        refine ⟨t, rfl, k1.trans hnn, by rw [h1]; rfl, ?_⟩
        intro g2 hg2
        have : g' = g2 := Option.some.inj (h1.symm.trans hg2)
        rw [← this, h2, hf.origin, hlr]
  · intro hv
    obtain ⟨s2, nouns, hx, hpost, h1, _, _, h4, h5, h6, h7, _⟩ := hok [] hcomp (fun h => by rw [hv] at h; cases h.1)
    have hn : nouns = [] := by
      have := C47_pipeline_only_removes _ _ _ _ _ _ hpost
      rw [hd] at this
      exact List.eq_nil_of_sublist_nil this
    subst hn
    rw [C100_same] at hx
    cases hY : V2.extractLeft p entLt enum s' m f b with
    | mk t y =>
      rw [hY] at hx
      match y, hx with
      | .error e, hx => cases hx
      | .ok r, hx => cases hx; exact ⟨s2, rfl, h1, by rw [hs0] at h4; omega⟩

/-! ### examples -/

/-- 여행 with two josas, 바다 with one: a noun is accepted and its eojeols are gone -/
private def exP : V2.Params := { extractCompound := true }

private def exC : EC.State := { counter := [("여행은".toList, 3), ("여행을".toList, 2), ("여행이".toList, 2), ("가다".toList, 1)], countSum := 8 }

private def exS : V2.State := { feats := { pos := ["은".toList, "을".toList, "이".toList] }, nouns := [("옛날".toList, (3, 1))] }

private def frozen (s : V2.State) : V2.State := { s with lrgraph := s.lrgraph.map LR.freeze }

/-- the hypotheses of the theorems are met, and a graph loses the eojeols of an accepted word -/
example : exC.counter.WF ∧ (∀ kv ∈ exC.counter, 0 < kv.2) ∧ exC.countSum = Dict.sumI exC.counter ∧
    (match V2.trainWithEojeolCounter exP exS exC with
    | .error _ => false
    | .ok s =>
      let r := V2.extractLeft exP (fun _ _ => false) (fun _ l => l) (frozen s) (3/10) 1 true
      decide (r.2 = .error .attributeError) && decide (r.1.nouns = [("옛날".toList, (3, 1))]) &&
      decide (r.1.decomposer = some [("여행".toList, 2)]) &&
      (match r.1.lrgraph with
       | none => false
       | some g => decide (g.lr.map (·.1) = ["가".toList, "가다".toList]))) = true := by
  refine ⟨by unfold Dict.WF; decide, by decide, by decide +kernel, by decide +kernel⟩

/-- without compounds: nouns are returned, no eojeol is covered -/
example : (match V2.trainWithEojeolCounter { exP with extractCompound := false } exS exC with
    | .error _ => false
    | .ok s =>
      let r := V2.extractLeft { exP with extractCompound := false } (fun _ _ => false) (fun _ l => l) (frozen s) (3/10) 1 true
      decide (r.2 = .ok [("여행".toList, (7, 1))]) && decide (r.1.numCovered = 0) && decide (r.1.numEojeols = 8)) = true := by
  decide +kernel

/-- a second training without eojeols -/
example : (match V2.trainWithEojeolCounter exP exS {} with
    | .error _ => false
    | .ok s =>
      let r := V2.extractLeft exP (fun _ _ => false) (fun _ l => l) s (3/10) 1 true
      decide (r.2 = .error .zeroDivision) && decide (r.1.nouns = [("옛날".toList, (3, 1))])) = true := by
  decide +kernel

/-- an extractor that was never trained -/
example : V2.extractLeft exP (fun _ _ => false) (fun _ l => l) exS (3/10) 1 true = ({ exS with numCovered := 0 }, .error .attributeError) := rfl

end Props
