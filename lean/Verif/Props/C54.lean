import Verif.Props.C47
import Verif.Props.C48
import Verif.Proofs.NounV2
import Mathlib.Tactic.Linarith
/-! C54: `LRNounExtractor_v2` scores every candidate on the eojeols no longer noun has taken. -/
set_option linter.unusedSimpArgs false
namespace Props
open Py Nested

/-- the eojeol `l ++ r`, counted `n` times, is split into `l` and `r` -/
def V2Split (p : V2.Params) (c : Dict Str Int) (l r : Str) (n : Int) : Prop :=
  l ≠ [] ∧ (l.length : Int) ≤ p.maxLeft ∧ (r.length : Int) ≤ p.maxRight ∧ Dict.get? c (l ++ r) = some n

/-- `e` is taken: a longer word than `w` with a score of at least `m` is split off `e` -/
def V2Taken (p : V2.Params) (c : Dict Str Int) (d : Dict Str (Rat × Rat)) (m : Rat) (w e : Str) : Prop :=
  ∃ w' x r n, Dict.get? d w' = some x ∧ m ≤ x.2 ∧ w.length < w'.length ∧ w' ++ r = e ∧ V2Split p c w' r n

/-- the right parts left to `w`, with the counts of the eojeols -/
structure V2Row (p : V2.Params) (c : Dict Str Int) (d : Dict Str (Rat × Rat)) (m : Rat) (w : Str) (row : List (Str × Int)) : Prop where
  nodup : row.Nodup
  mem : ∀ r n, (r, n) ∈ row ↔ V2Split p c w r n ∧ ¬ V2Taken p c d m w (w ++ r)

/-- the table of predictions: an entry for every left part of an eojeol with a positive feature as right part, holding what
    `predict` returns for the word in a graph with just the right parts left to it -/
structure V2Table (p : V2.Params) (F : V2.Features) (c : Dict Str Int) (m : Rat) (d : Dict Str (Rat × Rat)) : Prop where
  wf : Dict.WF d
  cands : ∀ w, w ∈ Dict.keys d ↔ ∃ r n, r ∈ F.pos ∧ r ≠ [] ∧ V2Split p c w r n
  entry : ∀ w x, Dict.get? d w = some x → ∃ row, V2Row p c d m w row ∧
    V2.predict p { feats := F, lrgraph := some { lr := [(w, row)] } } w m = .ok x

/-! ### proofs -/

private theorem edge_iff {p : V2.Params} {c : Dict Str Int} (hw : c.WF) {g : LR.State} (hg : g.lr = LR.lrOfCounter p.maxLeft p.maxRight c)
    (l r : Str) (n : Int) : get2 g.lr l r = some n ↔ V2Split p c l r n := by
  rw [hg, LR.get2_lrOfCounter _ _ hw]
  unfold V2Split
  constructor
  · rintro ⟨⟨a, b, c⟩, d⟩; exact ⟨a, b, c, d⟩
  · rintro ⟨a, b, c, d⟩; exact ⟨⟨a, b, c⟩, d⟩

private theorem edge_some {p : V2.Params} {c : Dict Str Int} (hw : c.WF) {g : LR.State} (hg : g.lr = LR.lrOfCounter p.maxLeft p.maxRight c)
    (l r : Str) : (get2 g.lr l r).isSome = true ↔ ∃ n, V2Split p c l r n := by
  rw [Option.isSome_iff_exists]
  exact exists_congr (fun n => edge_iff hw hg l r n)

private theorem taken_iff {p : V2.Params} {c : Dict Str Int} (hw : c.WF) {g : LR.State} (hg : g.lr = LR.lrOfCounter p.maxLeft p.maxRight c)
    (d : Dict Str (Rat × Rat)) (m : Rat) (w e : Str) : V2.TakenBy g d m w e ↔ V2Taken p c d m w e := by
  unfold V2.TakenBy V2Taken
  constructor
  · rintro ⟨w', x, h1, h2, h3, r, h4, h5⟩
    obtain ⟨n, hn⟩ := (edge_some hw hg w' r).1 h5
    exact ⟨w', x, r, n, h1, h2, h3, h4, hn⟩
  · rintro ⟨w', x, r, n, h1, h2, h3, h4, h5⟩
    exact ⟨w', x, h1, h2, h3, r, h4, (edge_some hw hg w' r).2 ⟨n, h5⟩⟩

private theorem predict_row (p : V2.Params) (F : V2.Features) (w : Str) (row : List (Str × Int)) (m : Rat) :
    V2.predict p { feats := F, lrgraph := some { lr := [(w, row)] } } w m =
      .ok (((V2.predictRow p F w row m).1 : Rat), (V2.predictRow p F w row m).2) := by
  have hp : (LR.getR { lr := [(w, row)] } w (-1)).Perm row := by
    have : LR.getR { lr := [(w, row)] } w (-1) = sorted LR.countLe row := by
      unfold LR.getR LR.topK Nested.row
      dsimp only
      rw [Dict.get?_cons, if_pos rfl]; rfl
    rw [this]; exact sorted_perm _ _
  unfold V2.predict V2.predictIn
  dsimp only
  rw [V2.predictRow_perm p F w hp]

theorem batch_table_cons {p : V2.Params} {c : Dict Str Int} (hw : c.WF) {g : LR.State} {N : Str → Int} (hc : LR.Cons N g)
    (hg : g.lr = LR.lrOfCounter p.maxLeft p.maxRight c) (F : V2.Features) (m : Rat) (enum : List Str → List Str) (henum : ∀ l, (enum l).Perm l) :
    V2Table p F c m (V2.batchPredicting p F g (Dict.keys (V2.nounCandidates g (enum F.pos))) m).2 := by
  classical
  obtain ⟨hcw, hck⟩ := V2.mem_nounCandidates hc.inv (enum F.pos)
  obtain ⟨h1, h2, h3⟩ := V2.batch_spec hc p F m (Dict.keys (V2.nounCandidates g (enum F.pos))) hcw
  generalize (V2.batchPredicting p F g (Dict.keys (V2.nounCandidates g (enum F.pos))) m).2 = d at *
  refine ⟨h1, ?_, ?_⟩
  · intro w
    rw [h2, hck]
    constructor
    · rintro ⟨r, hr, hne, hs⟩
      obtain ⟨n, hn⟩ := (edge_some hw hg w r).1 hs
      exact ⟨r, n, (henum _).mem_iff.1 hr, hne, hn⟩
    · rintro ⟨r, n, hr, hne, hn⟩
      exact ⟨r, (henum _).mem_iff.2 hr, hne, (edge_some hw hg w r).2 ⟨n, hn⟩⟩
  · intro w x hx
    have hm : w ∈ Dict.keys (V2.nounCandidates g (enum F.pos)) := by
      rw [← h2, ← Dict.isSome_get?_iff, hx]; rfl
    have := h3 w hm
    rw [hx] at this
    refine ⟨V2.freeRow g d m w, ⟨?_, ?_⟩, ?_⟩
    · exact (List.Nodup.of_map _ (LR.getR_all_nodup hc.inv w)).filter _
    · intro r n
      unfold V2.freeRow
      rw [List.mem_filter, LR.mem_getR_all hc.inv, edge_iff hw hg]
      constructor
      · rintro ⟨a, b⟩
        exact ⟨a, fun h => (of_decide_eq_true b) ((taken_iff hw hg d m w _).2 h)⟩
      · rintro ⟨a, b⟩
        exact ⟨a, decide_eq_true (fun h => b ((taken_iff hw hg d m w _).1 h))⟩
    · rw [predict_row, Option.some.inj this]

private theorem row_perm {p : V2.Params} {c : Dict Str Int} {m : Rat} {d d' : Dict Str (Rat × Rat)} {w : Str} {row row' : List (Str × Int)}
    (h : V2Row p c d m w row) (h' : V2Row p c d' m w row') (he : ∀ w', w.length < w'.length → Dict.get? d w' = Dict.get? d' w') : row.Perm row' := by
  rw [List.perm_ext_iff_of_nodup h.nodup h'.nodup]
  rintro ⟨r, n⟩
  rw [h.mem, h'.mem]
  have : V2Taken p c d m w (w ++ r) ↔ V2Taken p c d' m w (w ++ r) := by
    unfold V2Taken
    constructor
    · rintro ⟨w', x, r', n', h1, h2, h3, h4⟩
      exact ⟨w', x, r', n', (he w' h3) ▸ h1, h2, h3, h4⟩
    · rintro ⟨w', x, r', n', h1, h2, h3, h4⟩
      exact ⟨w', x, r', n', (he w' h3).symm ▸ h1, h2, h3, h4⟩
  rw [this]

/-- C54: the table is unique: the order in which sets are enumerated does not matter. -/
theorem C54_unique (p : V2.Params) (F : V2.Features) (c : Dict Str Int) (m : Rat) (d d' : Dict Str (Rat × Rat))
    (h : V2Table p F c m d) (h' : V2Table p F c m d') : d.Perm d' := by
  apply Dict.perm_of_get? h.wf h'.wf
  have key : ∀ (n : Nat) (w : Str), p.maxLeft.toNat < w.length + n → Dict.get? d w = Dict.get? d' w := by
    intro n
    induction n with
    | zero =>
      intro w hw
      have hno : ∀ r n, ¬ V2Split p c w r n := fun r n hs => by have := hs.2.1; omega
      have e1 : Dict.get? d w = none := by
        rw [Dict.get?_eq_none_iff, h.cands]; rintro ⟨r, n, _, _, hs⟩; exact hno r n hs
      have e2 : Dict.get? d' w = none := by
        rw [Dict.get?_eq_none_iff, h'.cands]; rintro ⟨r, n, _, _, hs⟩; exact hno r n hs
      rw [e1, e2]
    | succ n ih =>
      intro w hw
      have he : ∀ w', w.length < w'.length → Dict.get? d w' = Dict.get? d' w' := fun w' hl => ih w' (by omega)
      have hk : w ∈ Dict.keys d ↔ w ∈ Dict.keys d' := by rw [h.cands, h'.cands]
      cases hx : Dict.get? d w with
      | none =>
        rw [Dict.get?_eq_none_iff, hk, ← Dict.get?_eq_none_iff] at hx
        exact hx.symm
      | some x =>
        have : w ∈ Dict.keys d' := by rw [← hk, ← Dict.isSome_get?_iff, hx]; rfl
        obtain ⟨x', hx'⟩ := Option.isSome_iff_exists.1 ((Dict.isSome_get?_iff _ _).2 this)
        obtain ⟨row, hr, hp⟩ := h.entry w x hx
        obtain ⟨row', hr', hp'⟩ := h'.entry w x' hx'
        rw [predict_row, V2.predictRow_perm p F w (row_perm hr hr' he)] at hp
        rw [predict_row] at hp'
        rw [hx', ← Except.ok.inj hp, ← Except.ok.inj hp']
  intro w
  exact key (p.maxLeft.toNat + 1) w (by omega)

theorem batch_table {p : V2.Params} {c : Dict Str Int} (hw : c.WF) {g : LR.State} (hf : V2.Fresh c g)
    (hg : g.lr = LR.lrOfCounter p.maxLeft p.maxRight c) (F : V2.Features) (m : Rat) (enum : List Str → List Str) (henum : ∀ l, (enum l).Perm l) :
    V2Table p F c m (V2.batchPredicting p F g (Dict.keys (V2.nounCandidates g (enum F.pos))) m).2 :=
  batch_table_cons hw hf.cons hg F m enum henum

/-- the graph the batch leaves: the eojeols from which no accepted word is split off -/
theorem batch_graph {p : V2.Params} {c : Dict Str Int} (hw : c.WF) {g : LR.State} {N : Str → Int} (hc : LR.Cons N g)
    (hg : g.lr = LR.lrOfCounter p.maxLeft p.maxRight c) (F : V2.Features) (m : Rat) (cands : List Str) (hnd : cands.Nodup) :
    LR.Cons N (V2.batchPredicting p F g cands m).1 ∧ (V2.batchPredicting p F g cands m).1.origin = g.origin ∧
    ∀ l r n, get2 (V2.batchPredicting p F g cands m).1.lr l r = some n ↔ V2Split p c l r n ∧
      ¬ ∃ w x r' n', Dict.get? (V2.batchPredicting p F g cands m).2 w = some x ∧ m ≤ x.2 ∧ w ++ r' = l ++ r ∧ V2Split p c w r' n' := by
  have hsn : (sorted V2.longerLe cands).Nodup := (sorted_perm _ _).nodup_iff.2 hnd
  have hacc := V2.mem_accWords_iff p F m g (sorted V2.longerLe cands) hsn []
  have hk := (V2.batchGo_keys p F m g [] Dict.wf_nil (sorted V2.longerLe cands)).2
  unfold V2.batchPredicting
  rw [V2.batchGo_state]
  obtain ⟨h1, h2, h3⟩ := LR.claimAll_state (fun _ _ => true) hc (V2.accWords p F m g (sorted V2.longerLe cands))
  refine ⟨h1, h2, ?_⟩
  intro l r n
  have hcl : LR.ClaimedBy (fun w r => (fun _ _ => true : Str → Str → Bool) w r = true) g (V2.accWords p F m g (sorted V2.longerLe cands)) (l ++ r) ↔
      ∃ w x r' n', Dict.get? (V2.batchGo p F m g [] (sorted V2.longerLe cands)).2 w = some x ∧ m ≤ x.2 ∧ w ++ r' = l ++ r ∧ V2Split p c w r' n' := by
    unfold LR.ClaimedBy
    constructor
    · rintro ⟨w, hm, r', _, hs, he⟩
      obtain ⟨_, x, hx, hmx⟩ := (hacc w).1 hm
      obtain ⟨n', hn'⟩ := (edge_some hw hg w r').1 hs
      exact ⟨w, x, r', n', hx, hmx, he, hn'⟩
    · rintro ⟨w, x, r', n', hx, hmx, he, hn'⟩
      refine ⟨w, (hacc w).2 ⟨?_, x, hx, hmx⟩, r', rfl, (edge_some hw hg w r').2 ⟨n', hn'⟩, he⟩
      have : w ∈ Dict.keys (V2.batchGo p F m g [] (sorted V2.longerLe cands)).2 := by
        rw [← Dict.isSome_get?_iff, hx]; rfl
      rcases (hk w).1 this with h | h
      · exact absurd h (by simp [Dict.keys])
      · exact h
  rw [← hcl]
  rcases h3 l r with ⟨ha, hb⟩ | ⟨ha, hb⟩
  · rw [hb]
    constructor
    · intro h; cases h
    · rintro ⟨_, h⟩; exact absurd ha h
  · rw [hb, edge_iff hw hg]
    exact ⟨fun h => ⟨h, ha⟩, fun h => h.1⟩

/-! ### training -/

/-- C54: training with an eojeol counter. -/
theorem trained {p : V2.Params} {s s' : V2.State} {c : EC.State} (hw : c.counter.WF) (hp : ∀ kv ∈ c.counter, 0 < kv.2)
    (hsum : c.countSum = Dict.sumI c.counter) (h : V2.trainWithEojeolCounter p s c = .ok s') :
    ∃ g, s'.lrgraph = some g ∧ s'.feats = s.feats ∧ s'.numEojeols = Dict.sumI c.counter ∧ V2.Fresh c.counter g ∧
      g.lr = LR.lrOfCounter p.maxLeft p.maxRight c.counter := by
  obtain ⟨g, rfl, hf, hl⟩ := V2.trainCounter_ok hw hp hsum h
  exact ⟨g, rfl, rfl, rfl, hf, hl⟩

/-! ### supports -/

open Classical in
/-- C54: the supports of the accepted words add up to at most the number of counted eojeols: no eojeol supports two
    nouns. -/
theorem C54_supports (p : V2.Params) (F : V2.Features) (c : Dict Str Int) (hw : c.WF) (hp : ∀ kv ∈ c, 0 < kv.2) (m : Rat)
    (d : Dict Str (Rat × Rat)) (h : V2Table p F c m d) :
    ((d.filter (fun e => decide (m ≤ e.2.2))).map (fun e => e.2.1)).sum ≤ ((Dict.sumI c : Int) : Rat) := by
  -- the eojeols left to a word
  let P : Str → Str → Prop := fun w e => (∃ r n, w ++ r = e ∧ V2Split p c w r n) ∧ ¬ V2Taken p c d m w e
  have hsup : ∀ e ∈ d, e.2.1 ≤ ((LR.wsum c (P e.1) : Int) : Rat) := by
    rintro ⟨w, x⟩ he
    obtain ⟨row, hr, hx⟩ := h.entry w x (Dict.get?_of_mem h.wf he)
    have hget : ∀ r n, (r, n) ∈ row → Dict.get? c (w ++ r) = some n := fun r n hm => ((hr.mem r n).1 hm).1.2.2.2
    have hnn : ∀ rc ∈ row, 0 ≤ rc.2 := by
      rintro ⟨r, n⟩ hm
      exact le_of_lt (hp (w ++ r, n) (Dict.mem_of_get? (hget r n hm)))
    rw [predict_row] at hx
    have hx' := congrArg Prod.fst (Except.ok.inj hx)
    dsimp only at hx' ⊢
    rw [← hx']
    have hkn : (row.map (·.1)).Nodup := by
      rw [List.nodup_iff_pairwise_ne, List.pairwise_map]
      refine List.Pairwise.imp_of_mem ?_ hr.nodup
      rintro ⟨r, n⟩ ⟨r', n'⟩ ha hb hne hrr
      dsimp only at hrr
      subst hrr
      have := (hget _ _ ha).symm.trans (hget _ _ hb)
      exact hne (by rw [Option.some.inj this])
    have hsr := LR.sum_row (E := c) w row hkn (by
      rintro ⟨r, n⟩ hm
      dsimp only
      rw [V2.wsum_single hw]
      show n = (Dict.get? c (w ++ r)).getD 0
      rw [hget r n hm]; rfl)
    have hle : (V2.predictRow p F w row m).1 ≤ (row.map (·.2)).sum := by
      have hper : (LR.getR { lr := [(w, row)] } w (-1)).Perm row := by
        have : LR.getR { lr := [(w, row)] } w (-1) = sorted LR.countLe row := by
          unfold LR.getR LR.topK Nested.row
          dsimp only
          rw [Dict.get?_cons, if_pos rfl]; rfl
        rw [this]; exact sorted_perm _ _
      obtain ⟨su, sc, hpr, _, _, _, hb⟩ := C46_v2_bounds p { feats := F, lrgraph := some { lr := [(w, row)] } } _ rfl w m
        (fun rc hm => hnn rc (hper.mem_iff.1 hm))
      rw [predict_row] at hpr
      have := congrArg Prod.fst (Except.ok.inj hpr)
      dsimp only at this
      rw [← this, (hper.map _).sum_eq] at hb
      exact_mod_cast hb
    have heq : LR.wsum c (fun e => ∃ rc ∈ row, w ++ rc.1 = e) = LR.wsum c (P w) := by
      apply LR.wsum_congr
      rintro ⟨e, n⟩ _
      constructor
      · rintro ⟨⟨r, n'⟩, hm, rfl⟩
        obtain ⟨a, b⟩ := (hr.mem r n').1 hm
        exact ⟨⟨r, n', rfl, a⟩, b⟩
      · rintro ⟨⟨r, n', rfl, a⟩, b⟩
        exact ⟨(r, n'), (hr.mem r n').2 ⟨a, b⟩, rfl⟩
    rw [← heq, ← hsr]
    exact_mod_cast hle
  have hws : ((d.filter (fun e => decide (m ≤ e.2.2))).map (·.1)).Nodup := h.wf.filter _
  have hdis := LR.sum_wsum_disjoint (E := c) ((d.filter (fun e => decide (m ≤ e.2.2))).map (·.1)) hws P (by
    rintro w hw1 w' hw2 e ⟨⟨r, n, e1, s1⟩, t1⟩ ⟨⟨r', n', e2, s2⟩, t2⟩
    obtain ⟨⟨v, x⟩, hm, e0⟩ := List.mem_map.1 hw1
    dsimp only at e0
    subst e0
    obtain ⟨⟨v', x'⟩, hm', e0⟩ := List.mem_map.1 hw2
    dsimp only at e0
    subst e0
    obtain ⟨hm, hx⟩ := List.mem_filter.1 hm
    obtain ⟨hm', hx'⟩ := List.mem_filter.1 hm'
    dsimp only at *
    have hlen : v.length = v'.length := by
      rcases Nat.lt_trichotomy v.length v'.length with hl | hl | hl
      · exact absurd ⟨v', x', r', n', Dict.get?_of_mem h.wf hm', of_decide_eq_true hx', hl, e2, s2⟩ t1
      · exact hl
      · exact absurd ⟨v, x, r, n, Dict.get?_of_mem h.wf hm, of_decide_eq_true hx, hl, e1, s1⟩ t2
    exact (List.append_inj (e1.trans e2.symm) hlen).1)
  have hnn : ∀ e ∈ c, 0 ≤ e.2 := fun e he => le_of_lt (hp e he)
  have htot := LR.wsum_le_total hnn (fun e => ∃ w ∈ (d.filter (fun e => decide (m ≤ e.2.2))).map (·.1), P w e)
  rw [← hdis] at htot
  have hsum : ∀ l : List (Str × (Rat × Rat)), (∀ e ∈ l, e.2.1 ≤ ((LR.wsum c (P e.1) : Int) : Rat)) →
      (l.map (fun e => e.2.1)).sum ≤ ((((l.map (·.1)).map (fun w => LR.wsum c (P w))).sum : Int) : Rat) := by
    intro l hl
    induction l with
    | nil => simp
    | cons e l ih =>
      simp only [List.map_cons, List.sum_cons, Int.cast_add]
      have := ih (fun x hx => hl x (by simp [hx]))
      have := hl e (by simp)
      linarith
  refine le_trans (hsum _ (fun e he => hsup e (List.mem_filter.1 he).1)) ?_
  exact_mod_cast htot

/-! ### the whole extraction -/

theorem post_ok (pos common : List Str) (o : Nested Str) (methods : List Str) (nouns : Dict Str (Rat × Rat)) (hw : nouns.WF) :
    ∃ kept, NounPost.postProcessing pos common (some o) methods nouns = .ok kept := by
  induction methods generalizing nouns with
  | nil => exact ⟨nouns, rfl⟩
  | cons m ms ih =>
    have h1 : ∃ n1, NounPost.postMethod pos common (some o) nouns m = .ok n1 := by
      unfold NounPost.postMethod
      split
      · exact ⟨_, rfl⟩
      split
      · exact ⟨_, rfl⟩
      split
      · obtain ⟨k, r, h, _⟩ := C47_nj nouns hw o 5
        exact ⟨k, by rw [h]; rfl⟩
      · exact ⟨_, rfl⟩
    obtain ⟨n1, h1⟩ := h1
    have hsub : n1.Sublist nouns := C47_pipeline_only_removes pos common (some o) [m] nouns n1 (by
      unfold NounPost.postProcessing
      rw [List.foldlM_cons, h1]; rfl)
    obtain ⟨k, hk⟩ := ih n1 (hw.sublist hsub)
    refine ⟨k, ?_⟩
    unfold NounPost.postProcessing at hk ⊢
    rw [List.foldlM_cons, h1]
    exact hk

theorem combine_wf {d comp : Dict Str (Rat × Rat)} (hd : d.WF) (m f : Rat) : (V2.combine d comp m f).WF := by
  unfold V2.combine V2.updateDict
  apply Dict.WF.filter
  have h0 : Dict.WF (d.filter (fun e => decide (e.2.2 ≥ m))) := hd.filter _
  generalize d.filter (fun e => decide (e.2.2 ≥ m)) = b at h0
  induction comp generalizing b with
  | nil => exact h0
  | cons e comp ih => exact ih _ (h0.set _ _)

theorem base_eq (p : V2.Params) (entLt : List Int → Rat → Bool) (enum : Nat → List Str → List Str) (henum : ∀ i l, (enum i l).Perm l)
    (F : V2.Features) {E : List (Str × Int)} {g : LR.State} (hf : V2.Fresh E g) :
    V2.extractBase p entLt enum F g = .ok (F, g, Dict.keys (V2.nounCandidates g (enum 0 F.pos))) := by
  unfold V2.extractBase
  dsimp only
  split
  · rw [C48_extractor p entLt enum henum F E g hf _ [] (V2.mem_nounCandidates hf.cons.inv (enum 0 F.pos)).1 true {} (by norm_num)]
    rfl
  · rfl

/-- an eojeol is covered by the nouns: one of them that is a candidate is split off it, and it has more than one character,
    or the rest is empty, positive or common -/
def V2Covered (p : V2.Params) (F : V2.Features) (c : Dict Str Int) (nouns : Dict Str (Rat × Rat)) (e : Str) : Prop :=
  ∃ w r n, w ∈ Dict.keys nouns ∧ w ++ r = e ∧ V2Split p c w r n ∧ (∃ r' n', r' ∈ F.pos ∧ r' ≠ [] ∧ V2Split p c w r' n') ∧
    (1 < w.length ∨ r = [] ∨ r ∈ F.pos ∨ r ∈ F.common)

private theorem claimed_iff {p : V2.Params} {c : Dict Str Int} (hw : c.WF) {g : LR.State} (hf : V2.Fresh c g)
    (hg : g.lr = LR.lrOfCounter p.maxLeft p.maxRight c) (F : V2.Features) (nouns : Dict Str (Rat × Rat)) (enum : List Str → List Str)
    (henum : ∀ l, (enum l).Perm l) (e : Str) :
    LR.ClaimedBy (fun w r => V2.covers F w r = true) g
      ((sorted V2.longerLe (Dict.keys (V2.nounCandidates g (enum F.pos)))).filter (fun w => Dict.has nouns w)) e ↔ V2Covered p F c nouns e := by
  obtain ⟨_, hck⟩ := V2.mem_nounCandidates hf.cons.inv (enum F.pos)
  have hcov : ∀ w r, V2.covers F w r = true ↔ (1 < w.length ∨ r = [] ∨ r ∈ F.pos ∨ r ∈ F.common) := by
    intro w r
    unfold V2.covers
    simp [or_assoc]
  unfold LR.ClaimedBy V2Covered
  constructor
  · rintro ⟨w, hm, r, hq, hs, he⟩
    obtain ⟨hm, hn⟩ := List.mem_filter.1 hm
    obtain ⟨n, hn'⟩ := (edge_some hw hg w r).1 hs
    obtain ⟨r', hr', hne, hs'⟩ := (hck w).1 (mem_sorted.1 hm)
    obtain ⟨n', hn''⟩ := (edge_some hw hg w r').1 hs'
    exact ⟨w, r, n, (Dict.isSome_get?_iff _ _).1 hn, he, hn', ⟨r', n', (henum _).mem_iff.1 hr', hne, hn''⟩, (hcov w r).1 hq⟩
  · rintro ⟨w, r, n, hn, he, hsp, ⟨r', n', hr', hne, hs'⟩, hq⟩
    refine ⟨w, List.mem_filter.2 ⟨mem_sorted.2 ((hck w).2 ⟨r', (henum _).mem_iff.2 hr', hne, (edge_some hw hg w r').2 ⟨n', hs'⟩⟩), ?_⟩,
      r, (hcov w r).2 hq, (edge_some hw hg w r).2 ⟨n, hsp⟩, he⟩
    exact (Dict.isSome_get?_iff _ _).2 hn

private theorem covered_eq {p : V2.Params} {c : Dict Str Int} (hw : c.WF) {g : LR.State} (hf : V2.Fresh c g)
    (hg : g.lr = LR.lrOfCounter p.maxLeft p.maxRight c) (F : V2.Features) (nouns : Dict Str (Rat × Rat)) (enum : List Str → List Str)
    (henum : ∀ l, (enum l).Perm l) (g' : LR.State) (hr : LR.reset g' = (g, .ok ())) (N : Int) :
    V2.checkCovered p enum F g' nouns 0 N = if p.verbose = true ∧ N = 0 then .error .zeroDivision
      else .ok ((LR.claimAll (V2.covers F) g ((sorted V2.longerLe (Dict.keys (V2.nounCandidates g (enum F.pos)))).filter (fun w => Dict.has nouns w))).1,
        LR.wsum c (V2Covered p F c nouns)) := by
  unfold V2.checkCovered
  dsimp only
  rw [hr]
  dsimp only
  rw [V2.coverGo_eq, LR.claimAll_total _ hf.cons, Int.zero_add]
  rw [LR.wsum_congr (fun e _ => claimed_iff hw hf hg F nouns enum henum e.1)]

/-- C54: what `extract` does on a trained extractor. With the table of predictions `d` (unique by `C54_unique`) it collects
    the words with a score of at least `min_noun_score`, adds the compounds (if wanted), keeps what has a first component
    of at least `min_noun_frequency`, and post-processes the rest; it stores the result, leaves the features alone, gives
    the graph back as trained when asked to reset it (otherwise without the edges of the covered eojeols), and counts as
    covered the eojeols covered by the nouns. It fails only
    where finding compounds fails, or when it has to report the share of covered eojeols without any eojeol. What
    `decompose_compound` uses afterwards is what finding compounds left, or what was there when no compounds are wanted. -/
theorem C54_extract (p : V2.Params) (s s' : V2.State) (c : EC.State) (hw : c.counter.WF) (hp : ∀ kv ∈ c.counter, 0 < kv.2)
    (hsum : c.countSum = Dict.sumI c.counter) (htrain : V2.trainWithEojeolCounter p s c = .ok s')
    (entLt : List Int → Rat → Bool) (enum : Nat → List Str → List Str) (henum : ∀ i l, (enum i l).Perm l) (m f : Rat) (resetLrgraph : Bool) :
    ∃ d g, s'.lrgraph = some g ∧ V2Table p s.feats c.counter m d ∧
    ∀ comp : PyM (Dict Str (Rat × Rat)),
      comp = (if p.extractCompound then (V2.extractCompounds s.feats g d m).map (·.compounds) else .ok []) →
      (∀ e, comp = .error e → V2.extract p entLt enum s' m f resetLrgraph = .error e) ∧
      (∀ cs, comp = .ok cs → p.verbose = true → Dict.sumI c.counter = 0 → V2.extract p entLt enum s' m f resetLrgraph = .error .zeroDivision) ∧
      (∀ cs, comp = .ok cs → ¬ (p.verbose = true ∧ Dict.sumI c.counter = 0) → ∃ s'' nouns,
        V2.extract p entLt enum s' m f resetLrgraph = .ok (s'', nouns) ∧
        NounPost.postProcessing s.feats.pos s.feats.common g.origin p.postprocessing (V2.combine d cs m f) = .ok nouns ∧
        s''.nouns = nouns ∧ s''.feats = s.feats ∧ (resetLrgraph = true → s''.lrgraph = s'.lrgraph) ∧
        s''.numEojeols = Dict.sumI c.counter ∧ s''.numCovered = LR.wsum c.counter (V2Covered p s.feats c.counter nouns) ∧
        0 ≤ s''.numCovered ∧ s''.numCovered ≤ s''.numEojeols ∧
        (p.extractCompound = true → ∃ C, V2.extractCompounds s.feats g d m = .ok C ∧ s''.decomposer = some C.decomposer ∧ s''.components = C.components) ∧
        (p.extractCompound = false → s''.decomposer = s'.decomposer ∧ s''.components = s'.components) ∧
        (resetLrgraph = false → ∃ g'', s''.lrgraph = some g'' ∧ g''.origin = g.origin ∧
          ∀ l r n, (r, n) ∈ LR.getR g'' l (-1) ↔ V2Split p c.counter l r n ∧ ¬ V2Covered p s.feats c.counter nouns (l ++ r))) := by
  obtain ⟨g, hgr, hfeat, hnum, hf, hg⟩ := trained hw hp hsum htrain
  refine ⟨_, g, hgr, batch_table hw hf hg s.feats m (enum 0) (henum 0), ?_⟩
  generalize hcands : Dict.keys (V2.nounCandidates g (enum 0 s.feats.pos)) = cands
  have hdw : (V2.batchPredicting p s.feats g cands m).2.WF := by
    rw [← hcands]
    exact (batch_table hw hf hg s.feats m (enum 0) (henum 0)).wf
  intro comp hcomp
  have hor : (V2.batchPredicting p s.feats g cands m).1.origin = g.origin := (V2.batch_base p s.feats m hf.cons cands).1
  have hgraph := V2.extractCompounds_graph s.feats hor (V2.batchPredicting p s.feats g cands m).2 m
  have hunf : V2.extract p entLt enum s' m f resetLrgraph =
      (match V2.extractCompoundsIf p s.feats s' (V2.batchPredicting p s.feats g cands m).1 (V2.batchPredicting p s.feats g cands m).2 m with
      | .error e => .error e
      | .ok (s, g', compounds) => V2.finish p enum s'.feats s g' (V2.combine (V2.batchPredicting p s'.feats g cands m).2 compounds m f) resetLrgraph) := by
    unfold V2.extract
    rw [hgr]
    dsimp only
    rw [hfeat, base_eq p entLt enum henum s.feats hf]
    dsimp only
    rw [hcands]
    rfl
  have hcase : ∀ cs, comp = .ok cs → ∃ s1 g1, V2.extractCompoundsIf p s.feats s' (V2.batchPredicting p s.feats g cands m).1
      (V2.batchPredicting p s.feats g cands m).2 m = .ok (s1, g1, cs) ∧ s1.numEojeols = s'.numEojeols ∧
      (p.extractCompound = true → ∃ C, V2.extractCompounds s.feats g (V2.batchPredicting p s.feats g cands m).2 m = .ok C ∧ s1.decomposer = some C.decomposer ∧ s1.components = C.components) ∧
      (p.extractCompound = false → s1.decomposer = s'.decomposer ∧ s1.components = s'.components) := by
    intro cs hcs
    unfold V2.extractCompoundsIf
    by_cases hx : p.extractCompound = true
    · rw [if_pos hx] at hcomp ⊢
      rw [hcs] at hcomp
      cases h1 : V2.extractCompounds s.feats g (V2.batchPredicting p s.feats g cands m).2 m with
      | error e => rw [h1] at hcomp; cases hcomp
      | ok C =>
        rw [h1] at hcomp hgraph
        cases h2 : V2.extractCompounds s.feats (V2.batchPredicting p s.feats g cands m).1 (V2.batchPredicting p s.feats g cands m).2 m with
        | error e => rw [h2] at hgraph; cases hgraph
        | ok C' =>
          rw [h2] at hgraph
          have e := congrArg (fun x => x.2.2) (Except.ok.inj hgraph)
          dsimp only at e
          have e' : cs = C.compounds := Except.ok.inj hcomp
          have e1 := congrArg (fun x => x.1) (Except.ok.inj hgraph)
          have e2 := congrArg (fun x => x.2.1) (Except.ok.inj hgraph)
          dsimp only at e1 e2
          rw [e', ← e]
          exact ⟨_, _, rfl, rfl, fun _ => ⟨C, rfl, by rw [← e1], by rw [← e2]⟩, fun h => by rw [hx] at h; cases h⟩
    · rw [if_neg hx] at hcomp ⊢
      rw [hcs] at hcomp
      have e' : cs = [] := Except.ok.inj hcomp
      rw [e']
      exact ⟨_, _, rfl, rfl, fun h => absurd h hx, fun _ => ⟨rfl, rfl⟩⟩
  have hfin : ∀ cs, comp = .ok cs → ∃ s1 g1 nouns, V2.extract p entLt enum s' m f resetLrgraph =
        V2.finish p enum s.feats s1 g1 (V2.combine (V2.batchPredicting p s.feats g cands m).2 cs m f) resetLrgraph ∧
      NounPost.postProcessing s.feats.pos s.feats.common g1.origin p.postprocessing (V2.combine (V2.batchPredicting p s.feats g cands m).2 cs m f) = .ok nouns ∧
      g1.origin = g.origin ∧ LR.reset g1 = (g, .ok ()) ∧ s1.numEojeols = Dict.sumI c.counter ∧
      (p.extractCompound = true → ∃ C, V2.extractCompounds s.feats g (V2.batchPredicting p s.feats g cands m).2 m = .ok C ∧ s1.decomposer = some C.decomposer ∧ s1.components = C.components) ∧
      (p.extractCompound = false → s1.decomposer = s'.decomposer ∧ s1.components = s'.components) := by
    intro cs hcs
    obtain ⟨s1, g1, h1, h2, hdec⟩ := hcase cs hcs
    obtain ⟨hreset, ho⟩ := V2.batch_compounds_reset p s.feats m hf cands h1
    obtain ⟨nouns, hn⟩ := post_ok s.feats.pos s.feats.common g.lr p.postprocessing (V2.combine (V2.batchPredicting p s.feats g cands m).2 cs m f)
      (combine_wf hdw m f)
    refine ⟨s1, g1, nouns, ?_, ?_, ho, hreset, h2.trans hnum, hdec⟩
    · rw [hunf, h1, hfeat]
    · rw [ho, hf.origin]; exact hn
  refine ⟨?_, ?_, ?_⟩
  · intro e he
    rw [hunf]
    unfold V2.extractCompoundsIf
    by_cases hx : p.extractCompound = true
    · rw [if_pos hx] at hcomp ⊢
      rw [he] at hcomp
      cases h1 : V2.extractCompounds s.feats g (V2.batchPredicting p s.feats g cands m).2 m with
      | ok C => rw [h1] at hcomp; cases hcomp
      | error e' =>
        rw [h1] at hcomp hgraph
        cases h2 : V2.extractCompounds s.feats (V2.batchPredicting p s.feats g cands m).1 (V2.batchPredicting p s.feats g cands m).2 m with
        | ok C' => rw [h2] at hgraph; cases hgraph
        | error e'' =>
          rw [h2] at hgraph
          cases hgraph
          cases hcomp
          rfl
    · rw [if_neg hx] at hcomp
      rw [he] at hcomp; cases hcomp
  · intro cs hcs hv h0
    obtain ⟨s1, g1, nouns, h1, h2, h3, h4, h5, hdec⟩ := hfin cs hcs
    rw [h1]
    unfold V2.finish
    rw [h2]
    dsimp only
    rw [covered_eq hw hf hg s.feats nouns (enum 1) (henum 1) g1 h4, h5, if_pos ⟨hv, h0⟩]
  · intro cs hcs hv
    obtain ⟨s1, g1, nouns, h1, h2, h3, h4, h5, hdec⟩ := hfin cs hcs
    have hnn : ∀ e ∈ c.counter, 0 ≤ e.2 := fun e he => le_of_lt (hp e he)
    obtain ⟨g2, hg2, hr2, hor2, hleft⟩ : ∃ g2, V2.checkCovered p (enum 1) s.feats g1 nouns 0 s1.numEojeols = .ok (g2, LR.wsum c.counter (V2Covered p s.feats c.counter nouns)) ∧
        LR.reset g2 = (g, .ok ()) ∧ g2.origin = g.origin ∧
        ∀ l r n, (r, n) ∈ LR.getR g2 l (-1) ↔ V2Split p c.counter l r n ∧ ¬ V2Covered p s.feats c.counter nouns (l ++ r) := by
      rw [covered_eq hw hf hg s.feats nouns (enum 1) (henum 1) g1 h4, h5, if_neg hv]
      obtain ⟨q1, q2, q3⟩ := LR.claimAll_state (V2.covers s.feats) hf.cons
        ((sorted V2.longerLe (Dict.keys (V2.nounCandidates g (enum 1 s.feats.pos)))).filter (fun w => Dict.has nouns w))
      refine ⟨_, rfl, V1.reset_claimAll _ hf.cons hf.origin hf.rl _, q2, ?_⟩
      intro l r n
      rw [LR.mem_getR_all q1.inv, ← edge_iff hw hg]
      rw [← claimed_iff hw hf hg s.feats nouns (enum 1) (henum 1)]
      rcases q3 l r with ⟨z1, z2⟩ | ⟨z1, z2⟩
      · rw [z2]; simp [z1]
      · rw [z2]; simp [z1]
    obtain ⟨g3, hg3⟩ : ∃ g3, g3 = some (if resetLrgraph = true then (LR.reset g2).1 else g2) := ⟨_, rfl⟩
    have hext : V2.extract p entLt enum s' m f resetLrgraph =
        .ok (⟨s.feats, g3, LR.wsum c.counter (V2Covered p s.feats c.counter nouns), s1.numEojeols, s1.decomposer, s1.components, nouns⟩, nouns) := by
      rw [h1]
      unfold V2.finish
      rw [h2]
      dsimp only
      rw [hg2, hg3]
    refine ⟨_, nouns, hext, h3 ▸ h2, rfl, rfl, ?_, h5, rfl, LR.wsum_nonneg hnn _, ?_, hdec.1, hdec.2, ?_⟩
    · intro hr
      dsimp only
      rw [hgr, hg3, if_pos hr, hr2]
    · dsimp only
      rw [h5]
      exact LR.wsum_le_total hnn _
    · intro hr
      refine ⟨g2, ?_, hor2, hleft⟩
      dsimp only
      rw [hg3, if_neg (by rw [hr]; decide)]

/-- C54: training with sentences is training with their eojeol counter, whose counts are positive and which has no
    duplicates (C24 says what it counts); it fails on an empty corpus only (given sane length limits). -/
theorem C54_sentences (p : V2.Params) (s : V2.State) (sents : List Str) (mf : Int) :
    (sents = [] → V2.trainWithSentences p s sents mf = .error .valueError) ∧
    (sents ≠ [] → 1 < p.maxLeft → 0 < p.maxRight → ∃ c s', EC.construct (V2.counterParams p mf) (some sents) = .ok c ∧ c.counter.WF ∧ (∀ kv ∈ c.counter, 0 < kv.2) ∧
      c.countSum = Dict.sumI c.counter ∧ V2.trainWithEojeolCounter p s c = .ok s' ∧ V2.trainWithSentences p s sents mf = .ok s') := by
  constructor
  · rintro rfl; rfl
  · intro hne hl hr
    obtain ⟨c, hc⟩ : ∃ c, EC.construct (V2.counterParams p mf) (some sents) = .ok c := by
      unfold EC.construct EC.counting EC.checkCorpus
      simp only [bind, Except.bind, pure, Except.pure]
      rw [if_neg (by simpa using hne)]
      exact ⟨_, rfl⟩
    obtain ⟨h1, h2, h3, _⟩ := V2.counter_ok hc
    obtain ⟨s', hs'⟩ : ∃ s', V2.trainWithEojeolCounter p s c = .ok s' := by
      unfold V2.trainWithEojeolCounter LR.toLrgraph
      obtain ⟨g, hg⟩ : ∃ g, LR.construct (LR.lrOfCounter p.maxLeft p.maxRight c.counter) [] p.maxLeft p.maxRight = .ok g := by
        unfold LR.construct
        rw [if_neg (by simpa using hl), if_neg (by simpa using hr), if_neg (by simp)]
        obtain ⟨g, h, _⟩ := LR.inv_ofGraph (LR.wf2_lrOfCounter p.maxLeft p.maxRight c.counter) p.maxLeft p.maxRight
        exact ⟨g, h⟩
      rw [hg]
      dsimp only
      unfold V2.trainWithLrgraph
      have hn : c.countSum ≠ -1 := by
        rw [h3]
        have := EC.sumI_nonneg (d := c.counter) (fun kv h => by have := (h2 kv h).1; omega)
        omega
      rw [if_neg hn]
      exact ⟨_, rfl⟩
    refine ⟨c, s', hc, h1, fun kv hk => by have := (h2 kv hk).1; omega, h3, hs', ?_⟩
    unfold V2.trainWithSentences
    rw [hc]; exact hs'

/-! ### a concrete case -/

private def exF : V2.Features := ⟨["는".toList, "를".toList, "에서".toList], ["다".toList], ["은".toList]⟩
private def exSents : List Str := ["학교는 좋다".toList, "학교를 학교에서 갔다".toList, "학교 학교는".toList, "학교장은 학교장는 학교장를".toList]
private def exRun (m f : Rat) : PyM ((Int × Int) × List (Str × Rat × Rat)) :=
  match V2.trainWithSentences {} { feats := exF } exSents with
  | .ok s => match V2.extract {} (fun _ _ => false) (fun _ l => l) s m f with
    | .ok (s, n) => .ok ((s.numCovered, s.numEojeols), n)
    | .error e => .error e
  | .error e => .error e

/-- the eojeols of 학교장 do not count for 학교: supports 3 and 5, eight of ten eojeols covered -/
example : exRun (3/10) 1 = .ok ((8, 10), [("학교장".toList, (3, 1)), ("학교".toList, (5, 1))]) := by decide +kernel
/-- without any sentence nothing can be trained; without any counted eojeol the report raises -/
example : V2.trainWithSentences {} { feats := exF } [] = .error .valueError := by decide +kernel
private def exEmpty : PyM (List (Str × Rat × Rat)) :=
  match V2.trainWithSentences {} { feats := exF } [[]] with
  | .ok s => (V2.extract {} (fun _ _ => false) (fun _ l => l) s).map Prod.snd
  | .error e => .error e
example : exEmpty = .error .zeroDivision := by decide +kernel

end Props
