import Verif.Model.Eomi
import Verif.Proofs.NounV2
/-! Lemmas about `EomiExtractor`: the batch over right parts, the tallies. -/
set_option linter.unusedSimpArgs false
namespace LR
open Py Nested

/-- removing a list of eojeols with their counts removes exactly their edges -/
theorem removeAll_cons {N : Str → Int} (xs : List (Str × Int)) (hxs : ∀ x ∈ xs, x.2 = N x.1) {s : State} (h : Cons N s) :
    Cons N (xs.foldl (fun g x => removeEojeol g x.1 x.2) s) ∧ V2.SameBase (xs.foldl (fun g x => removeEojeol g x.1 x.2) s) s ∧
    ∀ l r, (∃ x ∈ xs, x.1 = l ++ r) ∧ get2 (xs.foldl (fun g x => removeEojeol g x.1 x.2) s).lr l r = none ∨
      (¬ ∃ x ∈ xs, x.1 = l ++ r) ∧ get2 (xs.foldl (fun g x => removeEojeol g x.1 x.2) s).lr l r = get2 s.lr l r := by
  induction xs generalizing s with
  | nil => exact ⟨h, ⟨rfl, rfl, rfl⟩, fun l r => Or.inr ⟨by simp, rfl⟩⟩
  | cons x xs ih =>
    rw [List.foldl_cons]
    have e : x.2 = N x.1 := hxs x (by simp)
    obtain ⟨h1, _, h3⟩ := removeEojeol_cons h x.1
    rw [← e] at h1 h3
    obtain ⟨h4, h5, h6⟩ := ih (fun y hy => hxs y (by simp [hy])) h1
    refine ⟨h4, h5.trans (V2.sameBase_removeEojeol s x.1 x.2), ?_⟩
    intro l r
    rcases h6 l r with ⟨⟨y, hy, ey⟩, hn⟩ | ⟨hn, hg⟩
    · exact Or.inl ⟨⟨y, by simp [hy], ey⟩, hn⟩
    · rw [h3] at hg
      by_cases he : l ++ r = x.1
      · rw [if_pos he] at hg
        exact Or.inl ⟨⟨x, by simp, he.symm⟩, hg⟩
      · rw [if_neg he] at hg
        refine Or.inr ⟨?_, hg⟩
        rintro ⟨y, hy, ey⟩
        rcases List.mem_cons.1 hy with rfl | hy
        · exact he ey.symm
        · exact hn ⟨y, hy, ey⟩

theorem mem_getL_all {s : State} (h : Inv s) {l r : Str} {c : Int} : (l, c) ∈ getL s r (-1) ↔ r ≠ [] ∧ get2 s.lr l r = some c := by
  have : (l, c) ∈ getL s r (-1) ↔ get2 s.rl r l = some c := mem_getL h
  rw [this, h.tr]
  by_cases hr : r = []
  · simp [hr]
  · rw [if_neg hr]; simp [hr]

theorem getL_all_nodup {s : State} (h : Inv s) (r : Str) : ((getL s r (-1)).map (·.1)).Nodup := by
  unfold getL topK
  rw [if_neg (by omega)]
  exact (((sorted_perm _ _).map _).nodup_iff).2 (h.rl.row_wf r)

end LR

namespace Eomi
open Py Nested

/-- the left parts whose eojeols an accepted right part takes -/
def takes (S nouns : List Str) (l : Str) : Bool := S.contains l || isNounVerb S nouns l

theorem removeColumn_eq (S nouns : List Str) (g : LR.State) (r : Str) : removeColumn S nouns g r =
    (((LR.getL g r (-1)).filter (fun lc => takes S nouns lc.1)).map (fun lc => (lc.1 ++ r, lc.2))).foldl (fun g x => LR.removeEojeol g x.1 x.2) g := by
  unfold removeColumn
  generalize LR.getL g r (-1) = col
  induction col generalizing g with
  | nil => rfl
  | cons lc col ih =>
    rw [List.foldl_cons, ih, List.filter_cons]
    by_cases h : takes S nouns lc.1 = true
    · rw [if_pos h, if_pos (by exact h)]; rfl
    · rw [if_neg h, if_neg (by exact h)]

/-- the eojeol `e` is taken by one of the right parts -/
def Claimed (S nouns : List Str) (g : LR.State) (rs : List Str) (e : Str) : Prop :=
  ∃ r ∈ rs, ∃ l, r ≠ [] ∧ takes S nouns l = true ∧ (get2 g.lr l r).isSome = true ∧ l ++ r = e

theorem removeColumn_spec {N : Str → Int} {g : LR.State} (h : LR.Cons N g) (S nouns : List Str) (r : Str) :
    LR.Cons N (removeColumn S nouns g r) ∧ V2.SameBase (removeColumn S nouns g r) g ∧
    ∀ l r', Claimed S nouns g [r] (l ++ r') ∧ get2 (removeColumn S nouns g r).lr l r' = none ∨
      ¬ Claimed S nouns g [r] (l ++ r') ∧ get2 (removeColumn S nouns g r).lr l r' = get2 g.lr l r' := by
  rw [removeColumn_eq]
  obtain ⟨xs, hxs⟩ : ∃ xs, (((LR.getL g r (-1)).filter (fun lc => takes S nouns lc.1)).map (fun lc => (lc.1 ++ r, lc.2))) = xs := ⟨_, rfl⟩
  have hmem : ∀ e, (∃ x ∈ xs, x.1 = e) ↔ Claimed S nouns g [r] e := by
    intro e
    rw [← hxs]
    unfold Claimed
    constructor
    · rintro ⟨x, hx, rfl⟩
      obtain ⟨⟨l, n⟩, hm, rfl⟩ := List.mem_map.1 hx
      obtain ⟨h1, h2⟩ := List.mem_filter.1 hm
      obtain ⟨h3, h4⟩ := (LR.mem_getL_all h.inv).1 h1
      exact ⟨r, by simp, l, h3, h2, by rw [h4]; rfl, rfl⟩
    · rintro ⟨r', hr', l, h1, h2, h3, rfl⟩
      have : r' = r := by simpa using hr'
      subst this
      obtain ⟨n, hn⟩ := Option.isSome_iff_exists.1 h3
      exact ⟨(l ++ r', n), List.mem_map.2 ⟨(l, n), List.mem_filter.2 ⟨(LR.mem_getL_all h.inv).2 ⟨h1, hn⟩, h2⟩, rfl⟩, rfl⟩
  rw [hxs]
  obtain ⟨h1, h2, h3⟩ := LR.removeAll_cons (N := N) xs (by
    intro x hx
    rw [← hxs] at hx
    obtain ⟨⟨l, n⟩, hm, rfl⟩ := List.mem_map.1 hx
    obtain ⟨h4, _⟩ := List.mem_filter.1 hm
    exact (h.edge _ _ _ ((LR.mem_getL_all h.inv).1 h4).2).2.2) h
  refine ⟨h1, h2, fun l r' => ?_⟩
  rw [← hmem]
  exact h3 l r'

theorem columns_spec {N : Str → Int} {g : LR.State} (h : LR.Cons N g) (S nouns : List Str) (rs : List Str) :
    LR.Cons N (rs.foldl (removeColumn S nouns) g) ∧ V2.SameBase (rs.foldl (removeColumn S nouns) g) g ∧
    ∀ l r', Claimed S nouns g rs (l ++ r') ∧ get2 (rs.foldl (removeColumn S nouns) g).lr l r' = none ∨
      ¬ Claimed S nouns g rs (l ++ r') ∧ get2 (rs.foldl (removeColumn S nouns) g).lr l r' = get2 g.lr l r' := by
  induction rs generalizing g with
  | nil => exact ⟨h, ⟨rfl, rfl, rfl⟩, fun l r => Or.inr ⟨by rintro ⟨w, hw, _⟩; simp at hw, rfl⟩⟩
  | cons r rs ih =>
    rw [List.foldl_cons]
    obtain ⟨h1, h2, h3⟩ := removeColumn_spec h S nouns r
    obtain ⟨h4, h5, h6⟩ := ih h1
    refine ⟨h4, h5.trans h2, fun l r' => ?_⟩
    have hcons : ∀ e, Claimed S nouns g (r :: rs) e ↔ Claimed S nouns g [r] e ∨ Claimed S nouns g rs e := by
      intro e
      unfold Claimed
      simp only [List.mem_cons, List.not_mem_nil, or_false, exists_eq_or_imp, exists_eq_left]
    have hlater : ∀ e, ¬ Claimed S nouns g [r] e → (Claimed S nouns (removeColumn S nouns g r) rs e ↔ Claimed S nouns g rs e) := by
      intro e hn
      unfold Claimed
      constructor
      · rintro ⟨w', hw', l', hr', hq, hs, he⟩
        refine ⟨w', hw', l', hr', hq, ?_, he⟩
        rcases h3 l' w' with ⟨_, hg⟩ | ⟨_, hg⟩
        · rw [hg] at hs; cases hs
        · rw [hg] at hs; exact hs
      · rintro ⟨w', hw', l', hr', hq, hs, he⟩
        refine ⟨w', hw', l', hr', hq, ?_, he⟩
        rcases h3 l' w' with ⟨hx, _⟩ | ⟨_, hg⟩
        · rw [he] at hx; exact absurd hx hn
        · rw [hg]; exact hs
    by_cases hw : Claimed S nouns g [r] (l ++ r')
    · left
      refine ⟨(hcons _).2 (Or.inl hw), ?_⟩
      rcases h6 l r' with ⟨_, hg⟩ | ⟨_, hg⟩
      · exact hg
      · rw [hg]
        rcases h3 l r' with ⟨_, hg'⟩ | ⟨hn, _⟩
        · exact hg'
        · exact absurd hw hn
    · rcases h6 l r' with ⟨hc, hg⟩ | ⟨hc, hg⟩
      · exact Or.inl ⟨(hcons _).2 (Or.inr ((hlater _ hw).1 hc)), hg⟩
      · right
        refine ⟨fun hh => ?_, ?_⟩
        · rcases (hcons _).1 hh with hh | hh
          · exact hw hh
          · exact hc ((hlater _ hw).2 hh)
        · rw [hg]
          rcases h3 l r' with ⟨hx, _⟩ | ⟨_, hg'⟩
          · exact absurd hx hw
          · exact hg'

/-! ### the loop -/

section
variable (S nouns : List Str) (k : Int) (m : Rat)

/-- the right parts accepted along the way -/
def accR : LR.State → List Str → List Str
  | _, [] => []
  | g, r :: rs => if (predictIn S nouns k m g r).2 ≥ m then r :: accR (removeColumn S nouns g r) rs else accR g rs

theorem accR_cons (g : LR.State) (r : Str) (rs : List Str) :
    accR S nouns k m g (r :: rs) = if (predictIn S nouns k m g r).2 ≥ m then r :: accR S nouns k m (removeColumn S nouns g r) rs else accR S nouns k m g rs := rfl

theorem batchGo_state (g : LR.State) (d : Dict Str (Int × Rat)) (rs : List Str) :
    (batchGo S nouns k m g d rs).1 = (accR S nouns k m g rs).foldl (removeColumn S nouns) g := by
  induction rs generalizing g d with
  | nil => rfl
  | cons r rs ih =>
    unfold batchGo
    dsimp only
    rw [ih, accR_cons]
    by_cases h : (predictIn S nouns k m g r).2 ≥ m
    · rw [if_pos h, if_pos h, List.foldl_cons]
    · rw [if_neg h, if_neg h]

theorem accR_append (g : LR.State) (a b : List Str) :
    accR S nouns k m g (a ++ b) = accR S nouns k m g a ++ accR S nouns k m ((accR S nouns k m g a).foldl (removeColumn S nouns) g) b := by
  induction a generalizing g with
  | nil => rfl
  | cons r a ih =>
    rw [List.cons_append, accR_cons, accR_cons]
    by_cases h : (predictIn S nouns k m g r).2 ≥ m
    · rw [if_pos h, if_pos h, ih, List.cons_append, List.foldl_cons]
    · rw [if_neg h, if_neg h, ih]

theorem accR_sublist (g : LR.State) (rs : List Str) : (accR S nouns k m g rs).Sublist rs := by
  induction rs generalizing g with
  | nil => exact List.Sublist.slnil
  | cons r rs ih =>
    rw [accR_cons]
    split
    · exact (ih _).cons_cons _
    · exact (ih _).cons _

theorem batchGo_keys (g : LR.State) (d : Dict Str (Int × Rat)) (hd : d.WF) (rs : List Str) :
    (batchGo S nouns k m g d rs).2.WF ∧ ∀ x, x ∈ Dict.keys (batchGo S nouns k m g d rs).2 ↔ x ∈ Dict.keys d ∨ x ∈ rs := by
  induction rs generalizing g d with
  | nil => exact ⟨hd, by simp [batchGo]⟩
  | cons r rs ih =>
    unfold batchGo
    dsimp only
    obtain ⟨h1, h2⟩ := ih (if (predictIn S nouns k m g r).2 ≥ m then removeColumn S nouns g r else g) (Dict.set d r (predictIn S nouns k m g r)) (hd.set _ _)
    refine ⟨h1, fun x => ?_⟩
    rw [h2, Dict.mem_keys_set, List.mem_cons, or_comm (a := x = r), or_assoc]

theorem batchGo_other (g : LR.State) (d : Dict Str (Int × Rat)) (rs : List Str) (x : Str) (hx : x ∉ rs) :
    Dict.get? (batchGo S nouns k m g d rs).2 x = Dict.get? d x := by
  induction rs generalizing g d with
  | nil => rfl
  | cons r rs ih =>
    unfold batchGo
    dsimp only
    rw [ih _ _ (fun h => hx (by simp [h])), Dict.get?_set, if_neg (fun e => hx (by simp [e]))]

theorem batchGo_score (g : LR.State) (d : Dict Str (Int × Rat)) (pre : List Str) (r : Str) (post : List Str) (hr : r ∉ post) :
    Dict.get? (batchGo S nouns k m g d (pre ++ r :: post)).2 r =
      some (predictIn S nouns k m ((accR S nouns k m g pre).foldl (removeColumn S nouns) g) r) := by
  induction pre generalizing g d with
  | nil =>
    rw [List.nil_append]
    unfold batchGo
    dsimp only
    rw [batchGo_other _ _ _ _ _ _ _ _ hr, Dict.get?_set, if_pos rfl]
    rfl
  | cons v pre ih =>
    rw [List.cons_append]
    unfold batchGo
    dsimp only
    rw [ih, accR_cons]
    by_cases h : (predictIn S nouns k m g v).2 ≥ m
    · rw [if_pos h, if_pos h, List.foldl_cons]
    · rw [if_neg h, if_neg h]

theorem mem_accR_iff (g : LR.State) (rs : List Str) (hnd : rs.Nodup) (d : Dict Str (Int × Rat)) :
    ∀ w, w ∈ accR S nouns k m g rs ↔ w ∈ rs ∧ ∃ x, Dict.get? (batchGo S nouns k m g d rs).2 w = some x ∧ m ≤ x.2 := by
  induction rs generalizing g d with
  | nil => intro w; simp [accR]
  | cons v rs ih =>
    intro w
    rw [List.nodup_cons] at hnd
    unfold batchGo
    dsimp only
    rw [accR_cons]
    have hother := batchGo_other S nouns k m (if (predictIn S nouns k m g v).2 ≥ m then removeColumn S nouns g v else g) (Dict.set d v (predictIn S nouns k m g v)) rs v hnd.1
    rw [Dict.get?_set, if_pos rfl] at hother
    have hih := ih (if (predictIn S nouns k m g v).2 ≥ m then removeColumn S nouns g v else g) hnd.2 (Dict.set d v (predictIn S nouns k m g v)) w
    have hsub : ∀ g', v ∉ accR S nouns k m g' rs := fun g' h => hnd.1 ((accR_sublist S nouns k m g' rs).subset h)
    by_cases hwv : w = v
    · subst hwv
      rw [hother]
      by_cases h : (predictIn S nouns k m g w).2 ≥ m
      · rw [if_pos h]
        simp only [List.mem_cons, true_or, true_and, true_iff]
        exact ⟨_, rfl, h⟩
      · rw [if_neg h]
        constructor
        · intro hh; exact absurd hh (hsub _)
        · rintro ⟨_, x, hx, hxm⟩
          have := Option.some.inj hx
          subst this; exact absurd hxm h
    · by_cases h : (predictIn S nouns k m g v).2 ≥ m
      · rw [if_pos h] at hih ⊢
        rw [if_pos h, List.mem_cons, List.mem_cons]
        constructor
        · rintro (hh | hh)
          · exact absurd hh hwv
          · exact ⟨Or.inr (hih.1 hh).1, (hih.1 hh).2⟩
        · rintro ⟨hh | hh, hx⟩
          · exact absurd hh hwv
          · exact Or.inr (hih.2 ⟨hh, hx⟩)
      · rw [if_neg h] at hih ⊢
        rw [if_neg h, List.mem_cons]
        constructor
        · intro hh; exact ⟨Or.inr (hih.1 hh).1, (hih.1 hh).2⟩
        · rintro ⟨hh | hh, hx⟩
          · exact absurd hh hwv
          · exact hih.2 ⟨hh, hx⟩

theorem longerLe_totalPre : TotalPre longerLe := by
  constructor
  · intro a b c h1 h2; simp only [longerLe, decide_eq_true_eq] at *; omega
  · intro a b; simp only [longerLe, decide_eq_true_eq]; omega

/-- an accepted right part longer than `r` takes the eojeol `e` -/
def TakenBy (g : LR.State) (d : Dict Str (Int × Rat)) (r e : Str) : Prop :=
  ∃ r' x, Dict.get? d r' = some x ∧ m ≤ x.2 ∧ r.length < r'.length ∧ ∃ l, l ++ r' = e ∧ takes S nouns l = true ∧ (get2 g.lr l r').isSome = true

open Classical in
/-- the left parts of `r` whose eojeols are not taken by a longer accepted right part -/
noncomputable def freeCol (g : LR.State) (d : Dict Str (Int × Rat)) (r : Str) : List (Str × Int) :=
  (LR.getL g r (-1)).filter (fun lc => decide (¬ TakenBy S nouns m g d r (lc.1 ++ r)))

theorem free_perm {N : Str → Int} {g : LR.State} (hc : LR.Cons N g) (cands : List Str) (hnd : cands.Nodup) :
    (batchPrediction S nouns k m g cands).2.WF ∧ (∀ x, x ∈ Dict.keys (batchPrediction S nouns k m g cands).2 ↔ x ∈ cands) ∧
    ∀ r ∈ cands, ∃ col, col.Perm (freeCol S nouns m g (batchPrediction S nouns k m g cands).2 r) ∧
      Dict.get? (batchPrediction S nouns k m g cands).2 r = some (predictRow S nouns k m r col) := by
  classical
  have hsn : (sorted longerLe cands).Nodup := (sorted_perm _ _).nodup_iff.2 hnd
  have hk := batchGo_keys S nouns k m g [] Dict.wf_nil (sorted longerLe cands)
  refine ⟨hk.1, ?_, ?_⟩
  · intro x
    have := hk.2 x
    unfold batchPrediction
    rw [this]; simp [Dict.keys]
  intro w hw
  obtain ⟨pre, post, hsplit⟩ := List.append_of_mem (mem_sorted (le := longerLe).2 hw)
  have hpw := pairwise_sorted longerLe_totalPre cands
  have hacc := mem_accR_iff S nouns k m g (sorted longerLe cands) hsn []
  generalize hB : batchPrediction S nouns k m g cands = B
  have hB' : batchGo S nouns k m g [] (sorted longerLe cands) = B := hB
  rw [hB'] at hacc
  rw [hsplit] at hsn hpw hacc hB'
  have hw_post : w ∉ post := by
    have := (List.nodup_append.1 hsn).2.1
    rw [List.nodup_cons] at this; exact this.1
  have hscore := batchGo_score S nouns k m g [] pre w post hw_post
  rw [hB'] at hscore
  rw [hscore]
  refine ⟨_, ?_, rfl⟩
  obtain ⟨h1, h2, h3⟩ := columns_spec hc S nouns (accR S nouns k m g pre)
  rw [List.perm_ext_iff_of_nodup]
  · rintro ⟨l, c⟩
    rw [LR.mem_getL_all h1.inv]
    unfold freeCol
    rw [List.mem_filter, LR.mem_getL_all hc.inv, decide_eq_true_eq]
    have hiff : Claimed S nouns g (accR S nouns k m g pre) (l ++ w) ↔ TakenBy S nouns m g B.2 w (l ++ w) := by
      unfold Claimed TakenBy
      constructor
      · rintro ⟨w', hw', l', _, hq, hs, he⟩
        have hm : w' ∈ accR S nouns k m g (pre ++ w :: post) := by
          rw [accR_append]; exact List.mem_append_left _ hw'
        obtain ⟨_, x, hx, hxm⟩ := (hacc w').1 hm
        have hpre : w' ∈ pre := (accR_sublist S nouns k m g pre).subset hw'
        have hge : w.length ≤ w'.length := by
          have := (List.pairwise_append.1 hpw).2.2 w' hpre w (by simp)
          simpa [longerLe] using this
        have hne : w'.length ≠ w.length := by
          intro hl
          have : w' = w := (List.append_inj' he hl).2
          subst this
          exact (List.nodup_append.1 hsn).2.2 w' hpre w' (by simp) rfl
        exact ⟨w', x, hx, hxm, by omega, l', he, hq, hs⟩
      · rintro ⟨w', x, hx, hxm, hlt, l', he, hq, hs⟩
        have hmem : w' ∈ pre ++ w :: post := by
          have := (hk.2 w').1 (by
            rw [← Dict.isSome_get?_iff, hsplit, hB', hx]; rfl)
          rw [hsplit] at this
          simpa [Dict.keys] using this
        have hpre : w' ∈ pre := by
          rcases List.mem_append.1 hmem with h | h
          · exact h
          · exfalso
            rcases List.mem_cons.1 h with h | h
            · subst h; omega
            · have hp2 := (List.pairwise_append.1 hpw).2.1
              rw [List.pairwise_cons] at hp2
              have := hp2.1 w' h
              simp only [longerLe, decide_eq_true_eq] at this; omega
        have hm := (hacc w').2 ⟨hmem, x, hx, hxm⟩
        rw [accR_append] at hm
        refine ⟨w', ?_, l', by rintro rfl; simp at hlt, hq, hs, he⟩
        rcases List.mem_append.1 hm with h | h
        · exact h
        · exfalso
          have h' := (accR_sublist S nouns k m _ (w :: post)).subset h
          exact (List.nodup_append.1 hsn).2.2 w' hpre w' h' rfl
    rcases h3 l w with ⟨hcl, hg⟩ | ⟨hcl, hg⟩
    · rw [hg]
      constructor
      · rintro ⟨_, h⟩; cases h
      · rintro ⟨_, h⟩; exact absurd (hiff.1 hcl) h
    · rw [hg]
      constructor
      · intro h; exact ⟨h, fun ht => hcl (hiff.2 ht)⟩
      · exact fun h => h.1
  · exact List.Nodup.of_map _ (LR.getL_all_nodup h1.inv w)
  · exact (List.Nodup.of_map _ (LR.getL_all_nodup hc.inv w)).filter _

theorem batch_reset {E : List (Str × Int)} {g : LR.State} (hf : V2.Fresh E g) (cands : List Str) :
    LR.reset (batchPrediction S nouns k m g cands).1 = (g, .ok ()) := by
  unfold batchPrediction
  rw [batchGo_state]
  refine V2.reset_same hf (columns_spec hf.cons S nouns _).2.1 ?_
  by_cases he : g.lr = []
  · right
    generalize accR S nouns k m g (sorted longerLe cands) = rs
    induction rs with
    | nil => rfl
    | cons r rs ih =>
      rw [List.foldl_cons]
      have : removeColumn S nouns g r = g := by
        unfold removeColumn
        have hn : LR.getL g r (-1) = [] := by
          rw [List.eq_nil_iff_forall_not_mem]
          rintro ⟨l, c⟩ hm
          obtain ⟨_, h⟩ := (LR.mem_getL_all hf.cons.inv).1 hm
          rw [he] at h; cases h
        rw [hn]; rfl
      rw [this, ih]
  · exact Or.inl he
end

end Eomi
