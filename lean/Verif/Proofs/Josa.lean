import Verif.Model.Josa
import Verif.Proofs.LRGraph2
import Mathlib.Algebra.Order.Field.Rat
import Mathlib.Tactic.Linarith
import Mathlib.Tactic.Positivity
/-! Lemmas about the search for new positive features. -/
namespace Josa
open Py Nested

/-- the verdict on one candidate, without exceptions -/
def verdict (p : Params) (entLt : List Int → Rat → Bool) (g : LR.State) (nouns : List Str) (posR : Str → Bool) (r : Str) : Option (Rat × Int) :=
  let f := nounFeature g r
  let x := if ((lastCounter f).length : Int) < p.minNumOfUniqueLastchar ∨ entLt ((lastCounter f).map (·.2)) p.minEntropyOfLastchar = true then (0, 0)
    else scoreOf p (tally nouns posR r f)
  if x.1 ≥ p.minPosScore ∧ x.2 ≥ p.minPosFeatureFrequency ∧ entLt ((f.filter (fun lc => nouns.contains lc.1)).map (·.2)) p.minNounEntropy = false then some x else none

theorem sum_pos {cs : List Int} (h : ∀ c ∈ cs, 0 < c) (hne : cs ≠ []) : 0 < cs.sum := by
  induction cs with
  | nil => exact absurd rfl hne
  | cons c cs ih =>
    rw [List.sum_cons]
    have := h c (by simp)
    by_cases hc : cs = []
    · subst hc; simpa using this
    · have := ih (fun x hx => h x (by simp [hx])) hc; omega

theorem entropyLt_ok (entLt : List Int → Rat → Bool) {cs : List Int} (h : ∀ c ∈ cs, 0 < c) (x : Rat) : entropyLt entLt cs x = .ok (entLt cs x) := by
  unfold entropyLt
  by_cases hne : cs = []
  · subst hne; rfl
  · have hs := sum_pos h hne
    rw [if_neg (by rintro ⟨_, h0⟩; omega), if_neg]
    rw [List.any_eq_true]
    rintro ⟨c, hc, hx⟩
    rw [decide_eq_true_eq] at hx
    have h1 : (0 : Rat) < (c : Rat) := by exact_mod_cast h c hc
    have h2 : (0 : Rat) < (cs.sum : Rat) := by exact_mod_cast hs
    have := div_pos h1 h2
    linarith

theorem lastCounter_pos {f : List (Str × Int)} (h : ∀ lc ∈ f, 0 < lc.2) : ∀ c ∈ (lastCounter f).map (·.2), 0 < c := by
  unfold lastCounter
  suffices hh : ∀ (d : Dict (Option Char) Int), d.WF → (∀ e ∈ d, 0 < e.2) →
      ∀ e ∈ f.foldl (fun d lc => Dict.addI d lc.1.getLast? lc.2) d, 0 < e.2 by
    intro c hc
    obtain ⟨e, he, rfl⟩ := List.mem_map.1 hc
    exact hh [] Dict.wf_nil (by simp) e he
  induction f with
  | nil => intro d _ hd; exact hd
  | cons lc f ih =>
    intro d hw hd
    rw [List.foldl_cons]
    apply ih (fun x hx => h x (by simp [hx])) _ (hw.addI _ _)
    rintro ⟨k, v⟩ he
    have hg := Dict.get?_of_mem (hw.addI lc.1.getLast? lc.2) he
    rw [Dict.get?_addI] at hg
    split at hg
    · have := Option.some.inj hg
      have hlc := h lc (by simp)
      have hd0 : 0 ≤ Dict.getD d k 0 := by
        show 0 ≤ (Dict.get? d k).getD 0
        cases hk : Dict.get? d k with
        | none => exact le_refl _
        | some v' => exact le_of_lt (hd _ (Dict.mem_of_get? hk))
      dsimp only
      omega
    · exact hd _ (Dict.mem_of_get? hg)

/-- no count of the graph is below 1 -/
def Positive (g : LR.State) : Prop := ∀ r, ∀ lc ∈ LR.getL g r (-1), 0 < lc.2

theorem judge_ok {g : LR.State} (hg : Positive g) (p : Params) (entLt : List Int → Rat → Bool) (nouns : List Str) (posR : Str → Bool) (r : Str) :
    judge p entLt g nouns posR r = .ok (verdict p entLt g nouns posR r) := by
  have hf : ∀ lc ∈ nounFeature g r, 0 < lc.2 := fun lc h => hg r lc (List.mem_filter.1 h).1
  unfold judge predict verdict
  rw [entropyLt_ok entLt (lastCounter_pos hf)]
  dsimp only
  have h2 : ∀ c ∈ ((nounFeature g r).filter (fun lc => nouns.contains lc.1)).map (·.2), 0 < c := by
    intro c hc
    obtain ⟨lc, hlc, rfl⟩ := List.mem_map.1 hc
    exact hf lc (List.mem_filter.1 hlc).1
  rw [entropyLt_ok entLt h2]
  by_cases hc : ((lastCounter (nounFeature g r)).length : Int) < p.minNumOfUniqueLastchar ∨
      entLt ((lastCounter (nounFeature g r)).map (·.2)) p.minEntropyOfLastchar = true
  · rw [if_pos hc, if_pos hc]
  · rw [if_neg hc, if_neg hc]

/-- the verdict depends on the features shorter than the candidate only -/
theorem isNJ_congr (nouns : List Str) {P Q : Str → Bool} {r : Str} (h : ∀ x, x.length < r.length → P x = Q x) :
    isNJ nouns P r = isNJ nouns Q r := by
  unfold isNJ
  have : ∀ is : List Nat, (∀ i ∈ is, 1 ≤ i ∧ i < r.length) → isNJgo nouns P r is = isNJgo nouns Q r is := by
    intro is
    induction is with
    | nil => intro _; rfl
    | cons i is ih =>
      intro hi
      unfold isNJgo
      rw [ih (fun j hj => hi j (by simp [hj])), h (r.drop i) (by have := hi i (by simp); rw [List.length_drop]; omega)]
  apply this
  intro i hi
  obtain ⟨j, hj, rfl⟩ := List.mem_map.1 hi
  rw [List.mem_range] at hj
  omega

theorem verdict_congr (p : Params) (entLt : List Int → Rat → Bool) (g : LR.State) (nouns : List Str) {P Q : Str → Bool} {r : Str}
    (h : ∀ x, x.length < r.length → P x = Q x) : verdict p entLt g nouns P r = verdict p entLt g nouns Q r := by
  unfold verdict tally
  rw [isNJ_congr nouns h]

theorem shorterLe_totalPre : TotalPre shorterLe := by
  constructor
  · intro a b c h1 h2; simp only [shorterLe, decide_eq_true_eq] at *; omega
  · intro a b; simp only [shorterLe, decide_eq_true_eq]; omega

/-- the loop on candidates sorted by length: the accepted ones are exactly those with a positive verdict against the final result -/
theorem loop_spec {g : LR.State} (hg : Positive g) (p : Params) (entLt : List Int → Rat → Bool) (known nouns : List Str) :
    ∀ (rs : List Str) (found : Dict Str (Rat × Int)), found.WF → rs.Pairwise (fun a b => shorterLe a b = true) → rs.Nodup →
      (∀ r ∈ rs, ∀ k ∈ Dict.keys found, k.length ≤ r.length ∧ k ≠ r) →
      ∃ res, loop p entLt g known nouns found rs = .ok res ∧ res.WF ∧
        (∀ r, r ∉ rs → Dict.get? res r = Dict.get? found r) ∧
        (∀ r ∈ rs, Dict.get? res r = if r ∈ known ∨ r ∈ nouns then none
          else verdict p entLt g nouns (fun x => known.contains x || Dict.has res x) r) := by
  intro rs
  induction rs with
  | nil => intro found hw _ _ _; exact ⟨found, rfl, hw, fun _ _ => rfl, by simp⟩
  | cons r rs ih =>
    intro found hw hpw hnd hk
    rw [List.pairwise_cons] at hpw
    rw [List.nodup_cons] at hnd
    have hnk : Dict.get? found r = none := by
      rw [Dict.get?_eq_none_iff]; intro h; exact (hk r (by simp) r h).2 rfl
    have hk' : ∀ r' ∈ rs, ∀ k ∈ Dict.keys found, k.length ≤ r'.length ∧ k ≠ r' := fun r' h => hk r' (by simp [h])
    by_cases hs : r ∈ known ∨ r ∈ nouns
    · obtain ⟨res, h1, h2, h3, h4⟩ := ih found hw hpw.2 hnd.2 hk'
      refine ⟨res, ?_, h2, fun r' hr' => h3 r' (fun h => hr' (by simp [h])), ?_⟩
      · unfold loop
        rw [if_pos (by simpa using hs)]; exact h1
      · intro r' hr'
        rcases List.mem_cons.1 hr' with rfl | hr'
        · rw [if_pos hs, h3 r' hnd.1, hnk]
        · exact h4 r' hr'
    · have hstep : ∀ found', found'.WF → (Dict.get? found' r = verdict p entLt g nouns (fun x => known.contains x || Dict.has found x) r) →
          (∀ k, k ≠ r → Dict.get? found' k = Dict.get? found k) →
          ∃ res, loop p entLt g known nouns found' rs = .ok res ∧ res.WF ∧
            (∀ r', r' ∉ r :: rs → Dict.get? res r' = Dict.get? found r') ∧
            (∀ r' ∈ r :: rs, Dict.get? res r' = if r' ∈ known ∨ r' ∈ nouns then none
              else verdict p entLt g nouns (fun x => known.contains x || Dict.has res x) r') := by
        intro found' hw' hv ho
        obtain ⟨res, h1, h2, h3, h4⟩ := ih found' hw' hpw.2 hnd.2 (by
          intro r' hr' k hkk
          by_cases hkr : k = r
          · subst hkr
            refine ⟨by simpa [shorterLe] using hpw.1 r' hr', fun e => hnd.1 (e ▸ hr')⟩
          · apply hk' r' hr' k
            rw [← Dict.isSome_get?_iff] at hkk ⊢
            rw [ho k hkr] at hkk; exact hkk)
        refine ⟨res, h1, h2, ?_, ?_⟩
        · intro r' hr'
          have n1 : r' ∉ rs := fun h => hr' (by simp [h])
          have n2 : r' ≠ r := fun h => hr' (by simp [h])
          rw [h3 r' n1, ho r' n2]
        · intro r' hr'
          rcases List.mem_cons.1 hr' with rfl | hr'
          · rw [if_neg hs, h3 r' hnd.1, hv]
            apply verdict_congr
            intro x hx
            have n1 : x ∉ rs := fun h => by
              have := hpw.1 x h
              simp only [shorterLe, decide_eq_true_eq] at this; omega
            have n2 : x ≠ r' := fun h => by subst h; omega
            have : Dict.has res x = Dict.has found x := by
              show (Dict.get? res x).isSome = (Dict.get? found x).isSome
              rw [h3 x n1, ho x n2]
            rw [this]
          · exact h4 r' hr'
      unfold loop
      rw [if_neg (by simpa using hs), judge_ok hg]
      cases hv : verdict p entLt g nouns (fun x => known.contains x || Dict.has found x) r with
      | none => exact hstep found hw (by rw [hnk, hv]) (fun _ _ => rfl)
      | some x =>
        apply hstep (Dict.set found r x) (hw.set _ _)
        · rw [Dict.get?_set, if_pos rfl, hv]
        · intro k hkr
          rw [Dict.get?_set, if_neg (fun e => hkr e.symm)]

/-! ### the candidates -/

theorem mem_getR_all' {s : LR.State} (h : LR.Inv s) {l r : Str} {c : Int} : (r, c) ∈ LR.getR s l (-1) ↔ get2 s.lr l r = some c := by
  unfold LR.getR LR.topK
  rw [if_neg (by omega), mem_sorted, Dict.mem_iff_get? (h.lr.row_wf l), get2_eq_row]

/-- the pairs counted for the candidates -/
def candPairs (g : LR.State) (known ignored nouns : List Str) : List (Str × Int) :=
  nouns.flatMap (fun n => (LR.getR g n (-1)).filter (fun rc => !(known.contains rc.1 || ignored.contains rc.1)))

theorem posCandidates_eq (g : LR.State) (known ignored nouns : List Str) :
    posCandidates g known ignored nouns = (candPairs g known ignored nouns).foldl (fun d rc => Dict.addI d rc.1 rc.2) [] := by
  unfold posCandidates candPairs
  generalize ([] : Dict Str Int) = d
  induction nouns generalizing d with
  | nil => rfl
  | cons n ns ih =>
    rw [List.foldl_cons, ih, List.flatMap_cons, List.foldl_append]
    congr 1
    generalize LR.getR g n (-1) = row
    induction row generalizing d with
    | nil => rfl
    | cons rc row ih2 =>
      rw [List.foldl_cons, ih2, List.filter_cons]
      by_cases h : (known.contains rc.1 || ignored.contains rc.1) = true
      · simp only [h, if_true]; rfl
      · have h' : (known.contains rc.1 || ignored.contains rc.1) = false := by simpa using h
        simp only [h', Bool.not_false, if_true, Bool.false_eq_true, if_false, List.foldl_cons]

theorem wf_posCandidates (g : LR.State) (known ignored nouns : List Str) : Dict.WF (posCandidates g known ignored nouns) := by
  rw [posCandidates_eq]
  exact Dict.WF.foldl_addI _ (fun x : Str × Int => x.1) (fun x => x.2) Dict.wf_nil

theorem getD_posCandidates {g : LR.State} (hi : LR.Inv g) (known ignored nouns : List Str) (r : Str) (hr : r ∉ known ∧ r ∉ ignored) :
    Dict.getD (posCandidates g known ignored nouns) r 0 = (nouns.map (fun n => (get2 g.lr n r).getD 0)).sum := by
  rw [posCandidates_eq, Dict.getD_foldl_addI _ (fun x : Str × Int => x.1) (fun x => x.2)]
  show 0 + _ = _
  rw [Int.zero_add]
  unfold candPairs
  induction nouns with
  | nil => rfl
  | cons n ns ih =>
    rw [List.flatMap_cons, List.filter_append, List.map_append, List.sum_append, ih, List.map_cons, List.sum_cons]
    congr 1
    rw [List.filter_filter]
    have : ∀ rc ∈ LR.getR g n (-1), (decide (rc.1 = r) && !(known.contains rc.1 || ignored.contains rc.1)) = decide (rc.1 = r) := by
      intro rc _
      by_cases h : rc.1 = r
      · subst h; simp [hr.1, hr.2]
      · simp [h]
    rw [List.filter_congr this]
    have hnd : ((LR.getR g n (-1)).map (·.1)).Nodup := by
      unfold LR.getR LR.topK
      rw [if_neg (by omega)]
      exact (((sorted_perm _ _).map _).nodup_iff).2 (hi.lr.row_wf n)
    have hmem := fun c => @mem_getR_all' g hi n r c
    generalize LR.getR g n (-1) = row at hnd hmem
    induction row with
    | nil =>
      cases hc : get2 g.lr n r with
      | none => rfl
      | some c => exact absurd ((hmem c).2 hc) (by simp)
    | cons rc row ih2 =>
      rw [List.map_cons, List.nodup_cons] at hnd
      rw [List.filter_cons]
      by_cases h : rc.1 = r
      · have he : row.filter (fun x => decide (x.1 = r)) = [] := by
          rw [List.filter_eq_nil_iff]
          intro x hx hxr
          simp only [decide_eq_true_eq] at hxr
          exact hnd.1 (List.mem_map.2 ⟨x, hx, by rw [hxr, h]⟩)
        have hc : get2 g.lr n r = some rc.2 := (hmem rc.2).1 (by rw [← h]; exact List.mem_cons_self ..)
        rw [if_pos (by simpa using h), he, hc]
        simp
      · rw [if_neg (by simpa using h)]
        by_cases hc : ∃ c, get2 g.lr n r = some c
        · obtain ⟨c, hc⟩ := hc
          have hm := (hmem c).2 hc
          rcases List.mem_cons.1 hm with e | hm
          · exact absurd (congrArg Prod.fst e).symm h
          · have : ∀ c', (r, c') ∈ row ↔ get2 g.lr n r = some c' := by
              intro c'
              rw [← hmem c', List.mem_cons]
              constructor
              · exact Or.inr
              · rintro (e | e)
                · exact absurd (congrArg Prod.fst e).symm h
                · exact e
            exact ih2 hnd.2 this
        · have hn : get2 g.lr n r = none := by
            cases hx : get2 g.lr n r with
            | none => rfl
            | some c => exact absurd ⟨c, hx⟩ hc
          have : ∀ c', (r, c') ∈ row ↔ get2 g.lr n r = some c' := by
            intro c'
            rw [← hmem c', List.mem_cons]
            constructor
            · exact Or.inr
            · rintro (e | e)
              · exact absurd (congrArg Prod.fst e).symm h
              · exact e
          exact ih2 hnd.2 this

theorem mem_keys_posCandidates {g : LR.State} (hi : LR.Inv g) (known ignored nouns : List Str) (r : Str) :
    r ∈ Dict.keys (posCandidates g known ignored nouns) ↔ r ∉ known ∧ r ∉ ignored ∧ ∃ n ∈ nouns, (get2 g.lr n r).isSome = true := by
  rw [posCandidates_eq, Dict.mem_keys_foldl_addI _ (fun x : Str × Int => x.1) (fun x => x.2)]
  unfold candPairs
  constructor
  · rintro (h | ⟨⟨r', c⟩, hx, rfl⟩)
    · simp [Dict.keys] at h
    · obtain ⟨n, hn, hx⟩ := List.mem_flatMap.1 hx
      obtain ⟨h1, h2⟩ := List.mem_filter.1 hx
      simp only [Bool.not_eq_true', Bool.or_eq_false_iff] at h2
      refine ⟨by simpa using h2.1, by simpa using h2.2, n, hn, ?_⟩
      rw [(mem_getR_all' hi).1 h1]; rfl
  · rintro ⟨h1, h2, n, hn, hs⟩
    obtain ⟨c, hc⟩ := Option.isSome_iff_exists.1 hs
    right
    refine ⟨(r, c), List.mem_flatMap.2 ⟨n, hn, List.mem_filter.2 ⟨(mem_getR_all' hi).2 hc, ?_⟩⟩, rfl⟩
    simp [h1, h2]

/-- the whole search -/
theorem extract_spec {g : LR.State} (hi : LR.Inv g) (hg : Positive g) (p : Params) (entLt : List Int → Rat → Bool) (enum : List Str → List Str)
    (henum : ∀ l, (enum l).Perm l) (table : Dict Str (Rat × Rat)) (known ignored : List Str) :
    ∃ res, extractDomainPosFeatures p entLt enum table g known ignored = .ok res ∧ res.WF ∧
      ∀ r, Dict.get? res r = if (r ∉ known ∧ r ∉ ignored ∧ ∃ n ∈ selectNouns p table, (get2 g.lr n r).isSome = true) ∧
          p.minPosFeatureFrequency ≤ ((selectNouns p table).map (fun n => (get2 g.lr n r).getD 0)).sum ∧ r ∉ selectNouns p table
        then verdict p entLt g (selectNouns p table) (fun x => known.contains x || Dict.has res x) r else none := by
  unfold extractDomainPosFeatures
  dsimp only
  generalize hN : selectNouns p table = nouns
  generalize hC : (posCandidates g known ignored (enum nouns)).filter (fun e => decide (e.2 ≥ p.minPosFeatureFrequency)) = cands
  have hw : Dict.WF (posCandidates g known ignored (enum nouns)) := wf_posCandidates ..
  have hcw : Dict.WF cands := by rw [← hC]; exact hw.filter _
  have hmem : ∀ r, r ∈ Dict.keys cands ↔ (r ∉ known ∧ r ∉ ignored ∧ ∃ n ∈ nouns, (get2 g.lr n r).isSome = true) ∧
      p.minPosFeatureFrequency ≤ (nouns.map (fun n => (get2 g.lr n r).getD 0)).sum := by
    intro r
    have hkeys := mem_keys_posCandidates hi known ignored (enum nouns) r
    have hsum : ((enum nouns).map (fun n => (get2 g.lr n r).getD 0)).sum = (nouns.map (fun n => (get2 g.lr n r).getD 0)).sum :=
      ((henum nouns).map _).sum_eq
    rw [← Dict.isSome_get?_iff, ← hC, Dict.get?_filter hw]
    constructor
    · intro h
      cases hx : Dict.get? (posCandidates g known ignored (enum nouns)) r with
      | none => rw [hx] at h; cases h
      | some v =>
        rw [hx] at h
        have hk := hkeys.1 ((Dict.isSome_get?_iff _ _).1 (by rw [hx]; rfl))
        have hD := getD_posCandidates hi known ignored (enum nouns) r ⟨hk.1, hk.2.1⟩
        have hv : Dict.getD (posCandidates g known ignored (enum nouns)) r 0 = v := by
          show (Dict.get? _ r).getD 0 = v
          rw [hx]; rfl
        rw [hv] at hD
        obtain ⟨k1, k2, n, hn, k3⟩ := hk
        refine ⟨⟨k1, k2, n, (henum nouns).mem_iff.1 hn, k3⟩, ?_⟩
        have : p.minPosFeatureFrequency ≤ v := by
          by_contra hcon
          simp [hcon] at h
        rw [hD, hsum] at this; exact this
    · rintro ⟨⟨k1, k2, n, hn, k3⟩, hf⟩
      have hk := hkeys.2 ⟨k1, k2, n, (henum nouns).mem_iff.2 hn, k3⟩
      obtain ⟨v, hx⟩ := Option.isSome_iff_exists.1 ((Dict.isSome_get?_iff _ _).2 hk)
      have hD := getD_posCandidates hi known ignored (enum nouns) r ⟨k1, k2⟩
      have hv : Dict.getD (posCandidates g known ignored (enum nouns)) r 0 = v := by
        show (Dict.get? _ r).getD 0 = v
        rw [hx]; rfl
      rw [hv, hsum] at hD
      rw [hx]
      have : p.minPosFeatureFrequency ≤ v := by rw [hD]; exact hf
      simp [this]
  obtain ⟨res, h1, h2, h3, h4⟩ := loop_spec hg p entLt known nouns (sorted shorterLe (Dict.keys cands)) [] Dict.wf_nil
    (pairwise_sorted shorterLe_totalPre _) ((sorted_perm _ _).nodup_iff.2 hcw) (by intro r _ k hk; simp [Dict.keys] at hk)
  refine ⟨res, h1, h2, ?_⟩
  intro r
  by_cases hr : r ∈ Dict.keys cands
  · rw [h4 r (mem_sorted.2 hr)]
    have hh := (hmem r).1 hr
    by_cases hn : r ∈ nouns
    · rw [if_pos (Or.inr hn), if_neg (fun h => h.2.2 hn)]
    · rw [if_neg (by rintro (h | h); exact hh.1.1 h; exact hn h), if_pos ⟨hh.1, hh.2, hn⟩]
  · rw [h3 r (fun h => hr (mem_sorted.1 h)), if_neg (fun h => hr ((hmem r).2 ⟨h.1, h.2.1⟩))]
    rfl

end Josa
