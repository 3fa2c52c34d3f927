import Verif.Model.NounV2
import Verif.Proofs.Claim
import Verif.Proofs.EojeolCounter
import Verif.Proofs.NounV1
import Verif.Proofs.Josa
import Mathlib.Data.List.Perm.Basic
import Mathlib.Tactic.SplitIfs
import Mathlib.Tactic.Ring
/-! Lemmas about `LRNounExtractor_v2`: training, prediction, the batch. -/
namespace V2
open Py Nested

/-! ### training -/

/-- the state of the graph after training on eojeols `E` -/
structure Fresh (E : List (Str × Int)) (g : LR.State) : Prop where
  cons : LR.Cons (fun x => LR.wsum E (fun e => e = x)) g
  origin : g.origin = some g.lr
  rl : g.rl = LR.reverse g.lr
  pos : ∀ e ∈ E, 0 < e.2

theorem wsum_single {c : Dict Str Int} (hw : c.WF) (x : Str) : LR.wsum c (fun e => e = x) = Dict.getD c x 0 := by
  classical
  induction c with
  | nil => exact LR.wsum_false []
  | cons e c ih =>
    simp only [Dict.WF, Dict.keys, List.map_cons, List.nodup_cons] at hw
    rw [LR.wsum_cons, ih hw.2]
    show _ = (Dict.get? ((e.1, e.2) :: c) x).getD 0
    rw [Dict.get?_cons]
    by_cases h : e.1 = x
    · rw [if_pos h, if_pos h]
      have : Dict.get? c x = none := by rw [Dict.get?_eq_none_iff]; intro hm; exact hw.1 (h ▸ hm)
      show e.2 + (Dict.get? c x).getD 0 = _
      rw [this]; simp
    · rw [if_neg h, if_neg h]; show 0 + (Dict.get? c x).getD 0 = _; rw [Int.zero_add]

theorem fresh_of_counter {c : Dict Str Int} (hw : c.WF) (hp : ∀ kv ∈ c, 0 < kv.2) {lMax rMax : Int} {g : LR.State}
    (hi : LR.Inv g) (h1 : g.lr = LR.lrOfCounter lMax rMax c) (h2 : g.origin = some g.lr) (h3 : g.rl = LR.reverse g.lr) : Fresh c g := by
  refine ⟨⟨hi, ?_⟩, h2, h3, hp⟩
  intro l r n hn
  rw [h1, LR.get2_lrOfCounter lMax rMax hw] at hn
  refine ⟨hn.1.1, hp _ (Dict.mem_of_get? hn.2), ?_⟩
  rw [wsum_single hw]
  show n = (Dict.get? c (l ++ r)).getD 0
  rw [hn.2]; rfl

theorem counter_ok {p : EC.Params} {sents : List Str} {c : EC.State} (h : EC.construct p (some sents) = .ok c) :
    c.counter.WF ∧ (∀ kv ∈ c.counter, 1 ≤ kv.2 ∧ kv.1 ≠ []) ∧ c.countSum = Dict.sumI c.counter ∧ sents ≠ [] := by
  unfold EC.construct EC.counting EC.checkCorpus at h
  simp only [bind, Except.bind, pure, Except.pure] at h
  by_cases hs : sents.length ≤ 0
  · rw [if_pos hs] at h; cases h
  · rw [if_neg hs] at h
    have := Except.ok.inj h
    subst this
    have := EC.filterMin_inv (m := p.minCount) (EC.foldl_countSent_inv p sents.zipIdx [] ⟨Dict.wf_nil, by simp⟩)
    exact ⟨this.1, this.2, rfl, by intro e; subst e; simp at hs⟩

theorem trainCounter_ok {p : Params} {s s' : State} {c : EC.State} (hw : c.counter.WF) (hp : ∀ kv ∈ c.counter, 0 < kv.2)
    (hsum : c.countSum = Dict.sumI c.counter) (h : trainWithEojeolCounter p s c = .ok s') :
    ∃ g, s' = { s with lrgraph := some g, numCovered := 0, numEojeols := Dict.sumI c.counter } ∧ Fresh c.counter g ∧
      g.lr = LR.lrOfCounter p.maxLeft p.maxRight c.counter := by
  unfold trainWithEojeolCounter at h
  cases hg : LR.toLrgraph c p.maxLeft p.maxRight with
  | error e => rw [hg] at h; cases h
  | ok g =>
    rw [hg] at h
    unfold LR.toLrgraph at hg
    obtain ⟨h1, h2, h3, _, _, h6⟩ := LR.construct_inv (LR.wf2_lrOfCounter p.maxLeft p.maxRight c.counter) hg
    rw [if_pos rfl] at h6
    have hn : Dict.sumI c.counter ≠ -1 := by
      have := EC.sumI_nonneg (d := c.counter) (fun kv h => le_of_lt (hp kv h))
      omega
    unfold trainWithLrgraph at h
    dsimp only at h
    rw [hsum, if_neg hn] at h
    refine ⟨g, (Except.ok.inj h).symm, fresh_of_counter hw hp h1 h6 h2 h3, h6⟩

theorem trainSentences_ok {p : Params} {s s' : State} {sents : List Str} {m : Int} (h : trainWithSentences p s sents m = .ok s') :
    ∃ c g, EC.construct (counterParams p m) (some sents) = .ok c ∧
      s' = { s with lrgraph := some g, numCovered := 0, numEojeols := Dict.sumI c.counter } ∧ Fresh c.counter g ∧
      c.counter.WF ∧ (∀ kv ∈ c.counter, kv.1 ≠ []) ∧ g.lr = LR.lrOfCounter p.maxLeft p.maxRight c.counter := by
  unfold trainWithSentences at h
  cases hc : EC.construct (counterParams p m) (some sents) with
  | error e => rw [hc] at h; cases h
  | ok c =>
    rw [hc] at h
    obtain ⟨h1, h2, h3, _⟩ := counter_ok hc
    obtain ⟨g, hs, hf, hl⟩ := trainCounter_ok (p := p) (s := s) h1 (fun kv hk => by have := (h2 kv hk).1; omega) h3 h
    exact ⟨c, g, rfl, hs, hf, h1, fun kv hk => (h2 kv hk).2, hl⟩

/-! ### the prediction does not depend on the order of the right parts -/

/-- what one right part adds -/
theorem tallyStep_add (F : Features) (w : Str) (x : Str × Int) :
    ∃ a b c d e : Int, ∀ t : Tally, tallyStep F w t x = ⟨t.pos + a, t.common + b, t.neg + c, t.unk + d, t.fin + e⟩ := by
  unfold tallyStep
  by_cases h1 : x.1 = []
  · refine ⟨0, 0, 0, 0, x.2, fun t => ?_⟩
    rw [if_pos h1]; simp
  by_cases h2 : existLonger F.pos w x.1 = true
  · refine ⟨0, 0, 0, 0, 0, fun t => ?_⟩
    rw [if_neg h1, if_pos h2]; simp
  by_cases h3 : existLonger F.neg w x.1 = true
  · refine ⟨0, 0, 0, 0, 0, fun t => ?_⟩
    rw [if_neg h1, if_neg h2, if_pos h3]; simp
  by_cases h4 : F.common.contains x.1 = true
  · refine ⟨0, x.2, 0, 0, 0, fun t => ?_⟩
    rw [if_neg h1, if_neg h2, if_neg h3, if_pos h4]; simp
  by_cases h5 : F.pos.contains x.1 = true
  · refine ⟨x.2, 0, 0, 0, 0, fun t => ?_⟩
    rw [if_neg h1, if_neg h2, if_neg h3, if_neg h4, if_pos h5]; simp
  by_cases h6 : F.neg.contains x.1 = true
  · refine ⟨0, 0, x.2, 0, 0, fun t => ?_⟩
    rw [if_neg h1, if_neg h2, if_neg h3, if_neg h4, if_neg h5, if_pos h6]; simp
  · refine ⟨0, 0, 0, x.2, 0, fun t => ?_⟩
    rw [if_neg h1, if_neg h2, if_neg h3, if_neg h4, if_neg h5, if_neg h6]; simp

theorem tally_perm (F : Features) (w : Str) {a b : List (Str × Int)} (h : a.Perm b) : tally F w a = tally F w b := by
  unfold tally
  have hc : ∀ (t : Tally) (x y : Str × Int), tallyStep F w (tallyStep F w t x) y = tallyStep F w (tallyStep F w t y) x := by
    intro t x y
    obtain ⟨a, b, c, d, e, hx⟩ := tallyStep_add F w x
    obtain ⟨a', b', c', d', e', hy⟩ := tallyStep_add F w y
    rw [hx, hy, hy, hx]
    simp only [Tally.mk.injEq]
    refine ⟨?_, ?_, ?_, ?_, ?_⟩ <;> omega
  have : RightCommutative (tallyStep F w) := ⟨hc⟩
  exact h.foldl_eq _

theorem predictRow_perm (p : Params) (F : Features) (w : Str) {a b : List (Str × Int)} (h : a.Perm b) (m : Rat) :
    predictRow p F w a m = predictRow p F w b m := by
  unfold predictRow
  have h1 := tally_perm F w h
  have h2 : (nonemptyFeatures F w a).length = (nonemptyFeatures F w b).length := by
    unfold nonemptyFeatures
    exact ((h.map _).filter _).length_eq
  have h3 : (firstChars F w a).length = (firstChars F w b).length := by
    unfold firstChars
    exact ((h.filterMap _).dedup).length_eq
  rw [h1, h2, h3]

/-! ### the batch -/

/-- the words accepted along the way -/
def accWords (p : Params) (F : Features) (m : Rat) : LR.State → List Str → List Str
  | _, [] => []
  | g, w :: ws => if (predictIn p F g w m).2 ≥ m then w :: accWords p F m (removeRow g w) ws else accWords p F m g ws

theorem accWords_cons (p : Params) (F : Features) (m : Rat) (g : LR.State) (w : Str) (ws : List Str) :
    accWords p F m g (w :: ws) = if (predictIn p F g w m).2 ≥ m then w :: accWords p F m (removeRow g w) ws else accWords p F m g ws := rfl

theorem removeRow_eq (g : LR.State) (w : Str) : removeRow g w = (LR.claimAll (fun _ _ => true) g [w]).1 := by
  unfold removeRow
  simp only [LR.claimAll]
  rw [List.filter_eq_self.2 (by simp)]

theorem claimAll_cons_state (g : LR.State) (w : Str) (ws : List Str) :
    (LR.claimAll (fun _ _ => true) g (w :: ws)).1 = (LR.claimAll (fun _ _ => true) (removeRow g w) ws).1 := by
  rw [removeRow_eq, show w :: ws = [w] ++ ws from rfl, LR.claimAll_append]

theorem batchGo_state (p : Params) (F : Features) (m : Rat) (g : LR.State) (d : Dict Str (Rat × Rat)) (ws : List Str) :
    (batchGo p F m g d ws).1 = (LR.claimAll (fun _ _ => true) g (accWords p F m g ws)).1 := by
  induction ws generalizing g d with
  | nil => rfl
  | cons w ws ih =>
    unfold batchGo accWords
    dsimp only
    rw [ih]
    by_cases h : (predictIn p F g w m).2 ≥ m
    · rw [if_pos h, if_pos h, claimAll_cons_state]
    · rw [if_neg h, if_neg h]

theorem accWords_append (p : Params) (F : Features) (m : Rat) (g : LR.State) (a b : List Str) :
    accWords p F m g (a ++ b) = accWords p F m g a ++ accWords p F m (LR.claimAll (fun _ _ => true) g (accWords p F m g a)).1 b := by
  induction a generalizing g with
  | nil => rfl
  | cons w a ih =>
    rw [List.cons_append, accWords_cons, accWords_cons]
    by_cases h : (predictIn p F g w m).2 ≥ m
    · rw [if_pos h, if_pos h, ih, List.cons_append, claimAll_cons_state]
    · rw [if_neg h, if_neg h, ih]

theorem accWords_subset (p : Params) (F : Features) (m : Rat) (g : LR.State) (ws : List Str) : (accWords p F m g ws).Sublist ws := by
  induction ws generalizing g with
  | nil => exact List.Sublist.slnil
  | cons w ws ih =>
    unfold accWords
    split
    · exact (ih _).cons_cons _
    · exact (ih _).cons _

theorem batchGo_keys (p : Params) (F : Features) (m : Rat) (g : LR.State) (d : Dict Str (Rat × Rat)) (hd : d.WF) (ws : List Str) :
    (batchGo p F m g d ws).2.WF ∧ ∀ k, k ∈ Dict.keys (batchGo p F m g d ws).2 ↔ k ∈ Dict.keys d ∨ k ∈ ws := by
  induction ws generalizing g d with
  | nil => exact ⟨hd, by simp [batchGo]⟩
  | cons w ws ih =>
    unfold batchGo
    dsimp only
    obtain ⟨h1, h2⟩ := ih (if (predictIn p F g w m).2 ≥ m then removeRow g w else g) (Dict.set d w (predictIn p F g w m)) (hd.set _ _)
    refine ⟨h1, ?_⟩
    intro k
    rw [h2, Dict.mem_keys_set, List.mem_cons]
    constructor
    · rintro ((h | h) | h)
      · exact Or.inr (Or.inl h)
      · exact Or.inl h
      · exact Or.inr (Or.inr h)
    · rintro (h | h | h)
      · exact Or.inl (Or.inr h)
      · exact Or.inl (Or.inl h)
      · exact Or.inr h

theorem batchGo_other (p : Params) (F : Features) (m : Rat) (g : LR.State) (d : Dict Str (Rat × Rat)) (ws : List Str) (k : Str) (hk : k ∉ ws) :
    Dict.get? (batchGo p F m g d ws).2 k = Dict.get? d k := by
  induction ws generalizing g d with
  | nil => rfl
  | cons w ws ih =>
    unfold batchGo
    dsimp only
    rw [ih _ _ (fun h => hk (by simp [h])), Dict.get?_set, if_neg (fun e => hk (by simp [e]))]

/-- the score of a word: predicted on the graph left by the words accepted before it -/
theorem batchGo_score (p : Params) (F : Features) (m : Rat) (g : LR.State) (d : Dict Str (Rat × Rat)) (pre : List Str) (w : Str) (post : List Str)
    (hw : w ∉ post) :
    Dict.get? (batchGo p F m g d (pre ++ w :: post)).2 w =
      some (predictIn p F (LR.claimAll (fun _ _ => true) g (accWords p F m g pre)).1 w m) := by
  induction pre generalizing g d with
  | nil =>
    rw [List.nil_append]
    unfold batchGo
    dsimp only
    rw [batchGo_other _ _ _ _ _ _ _ hw, Dict.get?_set, if_pos rfl]
    rfl
  | cons v pre ih =>
    rw [List.cons_append]
    unfold batchGo
    dsimp only
    rw [ih]
    rw [accWords_cons]
    by_cases h : (predictIn p F g v m).2 ≥ m
    · rw [if_pos h, if_pos h, claimAll_cons_state]
    · rw [if_neg h, if_neg h]

theorem longerLe_totalPre : TotalPre longerLe := by
  constructor
  · intro a b c h1 h2; simp only [longerLe, decide_eq_true_eq] at *; omega
  · intro a b; simp only [longerLe, decide_eq_true_eq]; omega

/-- a word `w'` accepted and longer than `w` takes the eojeol `e` -/
def TakenBy (g : LR.State) (d : Dict Str (Rat × Rat)) (m : Rat) (w e : Str) : Prop :=
  ∃ w' x, Dict.get? d w' = some x ∧ m ≤ x.2 ∧ w.length < w'.length ∧ ∃ r, w' ++ r = e ∧ (get2 g.lr w' r).isSome = true

open Classical in
/-- the right parts of `w` whose eojeols are not taken by a longer accepted word -/
noncomputable def freeRow (g : LR.State) (d : Dict Str (Rat × Rat)) (m : Rat) (w : Str) : List (Str × Int) :=
  (LR.getR g w (-1)).filter (fun rc => decide (¬ TakenBy g d m w (w ++ rc.1)))

theorem mem_accWords_iff (p : Params) (F : Features) (m : Rat) (g : LR.State) (ws : List Str) (hnd : ws.Nodup) (d : Dict Str (Rat × Rat)) :
    ∀ w, w ∈ accWords p F m g ws ↔ w ∈ ws ∧ ∃ x, Dict.get? (batchGo p F m g d ws).2 w = some x ∧ m ≤ x.2 := by
  induction ws generalizing g d with
  | nil => intro w; simp [accWords]
  | cons v ws ih =>
    intro w
    rw [List.nodup_cons] at hnd
    unfold batchGo
    dsimp only
    unfold accWords
    have hother := batchGo_other p F m (if (predictIn p F g v m).2 ≥ m then removeRow g v else g) (Dict.set d v (predictIn p F g v m)) ws v hnd.1
    rw [Dict.get?_set, if_pos rfl] at hother
    have hih := ih (if (predictIn p F g v m).2 ≥ m then removeRow g v else g) hnd.2 (Dict.set d v (predictIn p F g v m)) w
    have hsub : ∀ g', v ∉ accWords p F m g' ws := fun g' h => hnd.1 ((accWords_subset p F m g' ws).subset h)
    by_cases hwv : w = v
    · subst hwv
      rw [hother]
      by_cases h : (predictIn p F g w m).2 ≥ m
      · rw [if_pos h]
        simp only [List.mem_cons, true_or, true_and, true_iff]
        exact ⟨_, rfl, h⟩
      · rw [if_neg h]
        constructor
        · intro hh; exact absurd hh (hsub _)
        · rintro ⟨_, x, hx, hxm⟩
          have := Option.some.inj hx
          subst this; exact absurd hxm h
    · by_cases h : (predictIn p F g v m).2 ≥ m
      · rw [if_pos h] at hih ⊢
        rw [if_pos h]
        rw [List.mem_cons, List.mem_cons]
        constructor
        · rintro (hh | hh)
          · exact absurd hh hwv
          · exact ⟨Or.inr (hih.1 hh).1, (hih.1 hh).2⟩
        · rintro ⟨hh | hh, hx⟩
          · exact absurd hh hwv
          · exact Or.inr (hih.2 ⟨hh, hx⟩)
      · rw [if_neg h] at hih ⊢
        rw [if_neg h]
        rw [List.mem_cons]
        constructor
        · intro hh; exact ⟨Or.inr (hih.1 hh).1, (hih.1 hh).2⟩
        · rintro ⟨hh | hh, hx⟩
          · exact absurd hh hwv
          · exact hih.2 ⟨hh, hx⟩

/-- what the batch computes: every candidate is scored on the eojeols that no longer accepted candidate takes -/
theorem batch_spec {N : Str → Int} {g : LR.State} (hc : LR.Cons N g) (p : Params) (F : Features) (m : Rat) (cands : List Str) (hnd : cands.Nodup) :
    (batchPredicting p F g cands m).2.WF ∧ (∀ k, k ∈ Dict.keys (batchPredicting p F g cands m).2 ↔ k ∈ cands) ∧
    ∀ w ∈ cands, Dict.get? (batchPredicting p F g cands m).2 w =
      some (((predictRow p F w (freeRow g (batchPredicting p F g cands m).2 m w) m).1 : Rat),
        (predictRow p F w (freeRow g (batchPredicting p F g cands m).2 m w) m).2) := by
  classical
  have hsn : (sorted longerLe cands).Nodup := (sorted_perm _ _).nodup_iff.2 hnd
  have hk := batchGo_keys p F m g [] Dict.wf_nil (sorted longerLe cands)
  refine ⟨hk.1, ?_, ?_⟩
  · intro k
    have := hk.2 k
    unfold batchPredicting
    rw [this]; simp [Dict.keys]
  intro w hw
  obtain ⟨pre, post, hsplit⟩ := List.append_of_mem (mem_sorted (le := longerLe).2 hw)
  have hpw := pairwise_sorted longerLe_totalPre cands
  have hacc := mem_accWords_iff p F m g (sorted longerLe cands) hsn []
  generalize hB : batchPredicting p F g cands m = B
  have hB' : batchGo p F m g [] (sorted longerLe cands) = B := hB
  rw [hB'] at hacc
  rw [hsplit] at hsn hpw hacc hB'
  have hw_post : w ∉ post := by
    have := (List.nodup_append.1 hsn).2.1
    rw [List.nodup_cons] at this; exact this.1
  have hscore := batchGo_score p F m g [] pre w post hw_post
  rw [hB'] at hscore
  rw [hscore]
  have hperm : (LR.getR (LR.claimAll (fun _ _ => true) g (accWords p F m g pre)).1 w (-1)).Perm (freeRow g B.2 m w) := by
    obtain ⟨h1, h2, h3⟩ := LR.claimAll_state (fun _ _ => true) hc (accWords p F m g pre)
    rw [List.perm_ext_iff_of_nodup]
    · rintro ⟨r, c⟩
      rw [LR.mem_getR_all h1.inv]
      unfold freeRow
      rw [List.mem_filter, LR.mem_getR_all hc.inv, decide_eq_true_eq]
      have hiff : LR.ClaimedBy (fun w r => (fun _ _ => true : Str → Str → Bool) w r = true) g (accWords p F m g pre) (w ++ r) ↔ TakenBy g B.2 m w (w ++ r) := by
        unfold LR.ClaimedBy TakenBy
        constructor
        · rintro ⟨w', hw', r', _, hs, he⟩
          have hm : w' ∈ accWords p F m g (pre ++ w :: post) := by
            rw [accWords_append]; exact List.mem_append_left _ hw'
          obtain ⟨_, x, hx, hxm⟩ := (hacc w').1 hm
          have hpre : w' ∈ pre := (accWords_subset p F m g pre).subset hw'
          have hge : w.length ≤ w'.length := by
            have := (List.pairwise_append.1 hpw).2.2 w' hpre w (by simp)
            simpa [longerLe] using this
          have hne : w'.length ≠ w.length := by
            intro hl
            have : w' = w := (List.append_inj he hl).1
            subst this
            exact (List.nodup_append.1 hsn).2.2 w' hpre w' (by simp) rfl
          exact ⟨w', x, hx, hxm, by omega, r', he, hs⟩
        · rintro ⟨w', x, hx, hxm, hlt, r', he, hs⟩
          have hmem : w' ∈ pre ++ w :: post := by
            have := (hk.2 w').1 (by
              rw [← Dict.isSome_get?_iff, hsplit, hB', hx]; rfl)
            rw [hsplit] at this
            simpa [Dict.keys] using this
          have hpre : w' ∈ pre := by
            rcases List.mem_append.1 hmem with h | h
            · exact h
            · exfalso
              rcases List.mem_cons.1 h with h | h
              · subst h; omega
              · have hp2 := (List.pairwise_append.1 hpw).2.1
                rw [List.pairwise_cons] at hp2
                have := hp2.1 w' h
                simp only [longerLe, decide_eq_true_eq] at this; omega
          have hm := (hacc w').2 ⟨hmem, x, hx, hxm⟩
          rw [accWords_append] at hm
          refine ⟨w', ?_, r', rfl, hs, he⟩
          rcases List.mem_append.1 hm with h | h
          · exact h
          · exfalso
            have h' := (accWords_subset p F m _ (w :: post)).subset h
            exact (List.nodup_append.1 hsn).2.2 w' hpre w' h' rfl
      rcases h3 w r with ⟨hcl, hg⟩ | ⟨hcl, hg⟩
      · rw [hg]
        constructor
        · intro h; cases h
        · rintro ⟨_, h⟩; exact absurd (hiff.1 hcl) h
      · rw [hg]
        constructor
        · intro h; exact ⟨h, fun ht => hcl (hiff.2 ht)⟩
        · exact fun h => h.1
    · exact List.Nodup.of_map _ (LR.getR_all_nodup h1.inv w)
    · exact (List.Nodup.of_map _ (LR.getR_all_nodup hc.inv w)).filter _
  unfold predictIn
  dsimp only
  rw [predictRow_perm p F w hperm]

theorem mem_nounCandidates {g : LR.State} (hi : LR.Inv g) (pos : List Str) :
    (nounCandidates g pos).WF ∧ ∀ w, w ∈ Dict.keys (nounCandidates g pos) ↔ ∃ r ∈ pos, r ≠ [] ∧ (get2 g.lr w r).isSome = true := by
  unfold nounCandidates
  suffices h : ∀ d : Dict Str Int, d.WF → Dict.WF (pos.foldl (fun d r => (LR.getL g r (-1)).foldl (fun d lc => Dict.addI d lc.1 lc.2) d) d) ∧
      ∀ w, w ∈ Dict.keys (pos.foldl (fun d r => (LR.getL g r (-1)).foldl (fun d lc => Dict.addI d lc.1 lc.2) d) d) ↔
        w ∈ Dict.keys d ∨ ∃ r ∈ pos, r ≠ [] ∧ (get2 g.lr w r).isSome = true by
    have := h [] Dict.wf_nil
    refine ⟨this.1, fun w => ?_⟩
    rw [this.2]; simp [Dict.keys]
  induction pos with
  | nil => intro d hd; exact ⟨hd, by simp⟩
  | cons r pos ih =>
    intro d hd
    rw [List.foldl_cons]
    have hd' := Dict.WF.foldl_addI (LR.getL g r (-1)) (fun lc => lc.1) (fun lc => lc.2) hd
    obtain ⟨h1, h2⟩ := ih _ hd'
    refine ⟨h1, fun w => ?_⟩
    rw [h2, Dict.mem_keys_foldl_addI (LR.getL g r (-1)) (fun lc => lc.1) (fun lc => lc.2)]
    have hl : (∃ x ∈ LR.getL g r (-1), x.1 = w) ↔ r ≠ [] ∧ (get2 g.lr w r).isSome = true := by
      have hm : ∀ l n, (l, n) ∈ LR.getL g r (-1) ↔ get2 g.rl r l = some n := fun l n => LR.mem_getL hi
      constructor
      · rintro ⟨⟨l, n⟩, h, rfl⟩
        rw [hm, hi.tr] at h
        split at h
        · cases h
        · rename_i hr; exact ⟨hr, by rw [h]; rfl⟩
      · rintro ⟨hr, h⟩
        obtain ⟨n, hn⟩ := Option.isSome_iff_exists.1 h
        exact ⟨(w, n), (hm w n).2 (by rw [hi.tr, if_neg hr]; exact hn), rfl⟩
    rw [hl]
    simp only [List.mem_cons, exists_eq_or_imp]
    constructor
    · rintro ((h | h) | h)
      · exact Or.inl h
      · exact Or.inr (Or.inl h)
      · exact Or.inr (Or.inr h)
    · rintro (h | h | h)
      · exact Or.inl (Or.inl h)
      · exact Or.inl (Or.inr h)
      · exact Or.inr h

/-! ### coverage -/

theorem coverRow_eq (F : Features) (w : Str) (g : LR.State) (n : Int) :
    coverRow F w (g, n) = (((LR.getR g w (-1)).filter (fun rc => covers F w rc.1)).foldl (fun g rc => LR.removeEojeol g (w ++ rc.1) rc.2) g,
      n + (((LR.getR g w (-1)).filter (fun rc => covers F w rc.1)).map (·.2)).sum) := by
  unfold coverRow
  dsimp only
  generalize LR.getR g w (-1) = rs
  induction rs generalizing g n with
  | nil => simp
  | cons rc rs ih =>
    rw [List.foldl_cons, List.filter_cons]
    by_cases h : covers F w rc.1 = true
    · rw [if_pos h, if_pos h, ih, List.foldl_cons, List.map_cons, List.sum_cons, Int.add_assoc]
    · rw [if_neg h, if_neg h, ih]

theorem coverGo_eq (F : Features) (nouns : Dict Str (Rat × Rat)) (g : LR.State) (n : Int) (ws : List Str) :
    coverGo F nouns (g, n) ws = ((LR.claimAll (covers F) g (ws.filter (fun w => Dict.has nouns w))).1,
      n + ((LR.claimAll (covers F) g (ws.filter (fun w => Dict.has nouns w))).2.map (·.2)).sum) := by
  induction ws generalizing g n with
  | nil => simp [coverGo, LR.claimAll]
  | cons w ws ih =>
    unfold coverGo
    rw [List.filter_cons]
    by_cases h : Dict.has nouns w = true
    · rw [if_pos h, if_pos h, coverRow_eq, ih]
      simp only [LR.claimAll, List.map_cons, List.sum_cons, Int.add_assoc]
    · rw [if_neg h, if_neg h, ih]

/-! ### what the graph looks like after batch and compounds -/

/-- same limits and origin -/
def SameBase (a b : LR.State) : Prop := a.origin = b.origin ∧ a.lMax = b.lMax ∧ a.rMax = b.rMax

theorem SameBase.trans {a b c : LR.State} (h : SameBase a b) (h' : SameBase b c) : SameBase a c :=
  ⟨h.1.trans h'.1, h.2.1.trans h'.2.1, h.2.2.trans h'.2.2⟩

theorem sameBase_removeEojeol (g : LR.State) (w : Str) (k : Int) : SameBase (LR.removeEojeol g w k) g :=
  ⟨LR.removeEojeol_origin g w k, (V1.removeEojeol_limits g w k).1, (V1.removeEojeol_limits g w k).2⟩

theorem sameBase_compoundGo (pos : List Str) (scores : Dict Str Rat) (ps : Dict Str (Rat × Rat)) (a a' : Acc) (ws : List (Str × Int))
    (h : compoundGo pos scores ps a ws = .ok a') : SameBase a'.graph a.graph := by
  induction ws generalizing a with
  | nil => cases h; exact ⟨rfl, rfl, rfl⟩
  | cons w ws ih =>
    obtain ⟨word, count⟩ := w
    unfold compoundGo at h
    cases hp : compoundParts pos scores word with
    | error e => rw [hp] at h; cases h
    | ok o =>
      rw [hp] at h
      match o, h with
      | none, h => exact ih _ h
      | some [], h => exact ih _ h
      | some (q :: qs), h => exact (ih _ h).trans (sameBase_removeEojeol _ _ _)

theorem extractCompounds_base {F : Features} {g : LR.State} {ps : Dict Str (Rat × Rat)} {m : Rat} {C : Compounds}
    (h : extractCompounds F g ps m = .ok C) : SameBase C.graph g := by
  unfold extractCompounds at h
  cases ho : g.origin with
  | none => rw [ho] at h; cases h
  | some o =>
    rw [ho] at h
    dsimp only at h
    cases hc : compoundGo F.pos (nounScores ps m) ps { candidates := compoundCandidates o (nounScores ps m), graph := g }
        (sorted longerPairLe (compoundCandidates o (nounScores ps m))) with
    | error e => rw [hc] at h; cases h
    | ok a =>
      rw [hc] at h
      have := sameBase_compoundGo _ _ _ _ _ _ hc
      rw [← Except.ok.inj h]; exact this

theorem compoundGo_graph (pos : List Str) (scores : Dict Str Rat) (ps : Dict Str (Rat × Rat)) (a : Acc) (g : LR.State) (ws : List (Str × Int)) :
    (compoundGo pos scores ps { a with graph := g } ws).map (fun x => (x.candidates, x.scores, x.counts, x.components)) =
    (compoundGo pos scores ps a ws).map (fun x => (x.candidates, x.scores, x.counts, x.components)) := by
  induction ws generalizing a g with
  | nil => rfl
  | cons w ws ih =>
    obtain ⟨word, count⟩ := w
    unfold compoundGo
    cases compoundParts pos scores word with
    | error e => rfl
    | ok o =>
      match o with
      | none => exact ih a g
      | some [] => exact ih a g
      | some (q :: qs) => exact ih (addCompound ps a word count (q :: qs)) _

/-- only the graph as constructed matters for the compounds -/
theorem extractCompounds_graph (F : Features) {g g' : LR.State} (h : g.origin = g'.origin) (ps : Dict Str (Rat × Rat)) (m : Rat) :
    (extractCompounds F g ps m).map (fun C => (C.decomposer, C.components, C.compounds)) =
    (extractCompounds F g' ps m).map (fun C => (C.decomposer, C.components, C.compounds)) := by
  unfold extractCompounds
  rw [h]
  cases g'.origin with
  | none => rfl
  | some o =>
    dsimp only
    have := compoundGo_graph F.pos (nounScores ps m) ps { candidates := compoundCandidates o (nounScores ps m), graph := g } g'
      (sorted longerPairLe (compoundCandidates o (nounScores ps m)))
    dsimp only at this
    cases h1 : compoundGo F.pos (nounScores ps m) ps { candidates := compoundCandidates o (nounScores ps m), graph := g }
        (sorted longerPairLe (compoundCandidates o (nounScores ps m))) with
    | error e =>
      rw [h1] at this
      cases h2 : compoundGo F.pos (nounScores ps m) ps { candidates := compoundCandidates o (nounScores ps m), graph := g' }
        (sorted longerPairLe (compoundCandidates o (nounScores ps m))) with
      | error e' =>
        rw [h2] at this
        cases this; rfl
      | ok a' => rw [h2] at this; cases this
    | ok a =>
      rw [h1] at this
      cases h2 : compoundGo F.pos (nounScores ps m) ps { candidates := compoundCandidates o (nounScores ps m), graph := g' }
        (sorted longerPairLe (compoundCandidates o (nounScores ps m))) with
      | error e' => rw [h2] at this; cases this
      | ok a' =>
        rw [h2] at this
        have e := Except.ok.inj this
        have e1 := congrArg (fun x => x.2.1) e
        have e2 := congrArg (fun x => x.2.2.1) e
        have e3 := congrArg (fun x => x.2.2.2) e
        dsimp only at e1 e2 e3
        show Except.ok _ = Except.ok _
        rw [e1, e2, e3]

theorem batch_base {N : Str → Int} (p : Params) (F : Features) (m : Rat) {g : LR.State} (hc : LR.Cons N g) (cands : List Str) :
    SameBase (batchPredicting p F g cands m).1 g := by
  unfold batchPredicting
  rw [batchGo_state]
  obtain ⟨_, h2, _⟩ := LR.claimAll_state (fun _ _ => true) hc (accWords p F m g (sorted longerLe cands))
  exact ⟨h2, V1.claimAll_limits _ _ _⟩

/-- resetting any descendant of a freshly trained graph whose entries are not empty gives it back; an empty graph is its
    own only descendant as far as the tables go -/
theorem reset_same {E : List (Str × Int)} {g g' : LR.State} (hf : Fresh E g) (hb : SameBase g' g) (hne : g.lr ≠ [] ∨ g' = g) :
    LR.reset g' = (g, .ok ()) := by
  have ho : g'.origin = some g.lr := hb.1.trans hf.origin
  rcases hne with hne | rfl
  · unfold LR.reset
    rw [ho]
    dsimp only
    rw [if_neg hne, LR.checkLrgraph, if_neg hne]
    dsimp only
    rw [← hf.rl]
    obtain ⟨a, b, o, lm, rm⟩ := g'
    obtain ⟨a', b', o', lm', rm'⟩ := g
    obtain ⟨h1, h2, h3⟩ := hb
    dsimp only at *
    subst h1; subst h2; subst h3
    rw [ho]
  · by_cases he : g'.lr = []
    · unfold LR.reset; rw [ho]; dsimp only; rw [if_pos he]
    · unfold LR.reset
      rw [ho]
      dsimp only
      rw [if_neg he, LR.checkLrgraph, if_neg he]
      dsimp only
      rw [← hf.rl, ← ho]

theorem batch_compounds_reset {E : List (Str × Int)} (p : Params) (F : Features) (m : Rat) {g g' : LR.State} {s s' : State}
    {comp : Dict Str (Rat × Rat)} (hf : Fresh E g) (cands : List Str)
    (h : extractCompoundsIf p F s (batchPredicting p F g cands m).1 (batchPredicting p F g cands m).2 m = .ok (s', g', comp)) :
    LR.reset g' = (g, .ok ()) ∧ g'.origin = g.origin := by
  have hbb := batch_base p F m hf.cons cands
  have hbase : SameBase g' (batchPredicting p F g cands m).1 := by
    unfold extractCompoundsIf at h
    split at h
    · cases hC : extractCompounds F (batchPredicting p F g cands m).1 (batchPredicting p F g cands m).2 m with
      | error e => rw [hC] at h; cases h
      | ok C =>
        rw [hC] at h
        have := congrArg (fun x => x.2.1) (Except.ok.inj h)
        dsimp only at this
        rw [← this]
        exact extractCompounds_base hC
    · have := congrArg (fun x => x.2.1) (Except.ok.inj h)
      dsimp only at this
      rw [← this]
      exact ⟨rfl, rfl, rfl⟩
  refine ⟨reset_same hf (hbase.trans hbb) ?_, (hbase.trans hbb).1⟩
  by_cases he : g.lr = []
  · right
    have hb : (batchPredicting p F g cands m).1 = g := by
      unfold batchPredicting
      rw [batchGo_state, V1.claimAll_empty _ _ he]
    unfold extractCompoundsIf at h
    split at h
    · unfold extractCompounds at h
      rw [hbb.1, hf.origin, he] at h
      dsimp only at h
      have hc : compoundCandidates [] (nounScores (batchPredicting p F g cands m).2 m) = [] := rfl
      rw [hc] at h
      have hs : sorted longerPairLe ([] : List (Str × Int)) = [] := rfl
      rw [hs] at h
      have := congrArg (fun x => x.2.1) (Except.ok.inj h)
      dsimp only at this
      rw [← this]; exact hb
    · have := congrArg (fun x => x.2.1) (Except.ok.inj h)
      dsimp only at this
      rw [← this]; exact hb
  · exact Or.inl he

end V2
