import Verif.Proofs.LRGraph2
/-!
Claiming eojeols: when every edge of one eojeol carries that eojeol's count, removing the eojeol with that count removes
exactly its edges; sums of the rows claimed this way are sums over the eojeols.
-/
namespace LR
open Py Nested

/-! ### weighted sums -/

open Classical in
/-- the total weight of the entries of `E` whose string satisfies `P` -/
noncomputable def wsum (E : List (Str × Int)) (P : Str → Prop) : Int := ((E.filter (fun e => decide (P e.1))).map (·.2)).sum

theorem wsum_congr {E : List (Str × Int)} {P Q : Str → Prop} (h : ∀ e ∈ E, (P e.1 ↔ Q e.1)) : wsum E P = wsum E Q := by
  unfold wsum
  congr 2
  apply List.filter_congr
  intro e he
  simp [h e he]

theorem wsum_cons (e : Str × Int) (E : List (Str × Int)) (P : Str → Prop) [Decidable (P e.1)] :
    wsum (e :: E) P = (if P e.1 then e.2 else 0) + wsum E P := by
  unfold wsum
  rw [List.filter_cons]
  by_cases h : P e.1 <;> simp [h]

theorem wsum_or {E : List (Str × Int)} {P Q : Str → Prop} (h : ∀ e, P e → Q e → False) :
    wsum E (fun e => P e ∨ Q e) = wsum E P + wsum E Q := by
  classical
  induction E with
  | nil => rfl
  | cons e E ih =>
    rw [wsum_cons, wsum_cons, wsum_cons, ih]
    by_cases hp : P e.1
    · have hq : ¬ Q e.1 := fun hq => h _ hp hq
      simp only [hp, hq, or_false, if_true, if_false]; omega
    · simp only [hp, false_or, if_false]; omega

theorem wsum_false (E : List (Str × Int)) : wsum E (fun _ => False) = 0 := by
  unfold wsum; rw [List.filter_eq_nil_iff.2 (by simp)]; rfl

theorem wsum_nonneg {E : List (Str × Int)} (hE : ∀ e ∈ E, 0 ≤ e.2) (P : Str → Prop) : 0 ≤ wsum E P := by
  classical
  induction E with
  | nil => exact Int.le_refl _
  | cons e E ih =>
    rw [wsum_cons]
    have := ih (fun x hx => hE x (by simp [hx]))
    have := hE e (by simp)
    split <;> omega

theorem wsum_mono {E : List (Str × Int)} (hE : ∀ e ∈ E, 0 ≤ e.2) {P Q : Str → Prop} (h : ∀ e, P e → Q e) : wsum E P ≤ wsum E Q := by
  classical
  induction E with
  | nil => exact Int.le_refl _
  | cons e E ih =>
    rw [wsum_cons, wsum_cons]
    have := ih (fun x hx => hE x (by simp [hx]))
    have := hE e (by simp)
    by_cases hp : P e.1
    · rw [if_pos hp, if_pos (h _ hp)]; omega
    · rw [if_neg hp]; split <;> omega

theorem wsum_le_total {E : List (Str × Int)} (hE : ∀ e ∈ E, 0 ≤ e.2) (P : Str → Prop) : wsum E P ≤ (E.map (·.2)).sum := by
  have h1 := wsum_mono hE (P := P) (Q := fun _ => True) (fun _ _ => trivial)
  have h2 : wsum E (fun _ => True) = (E.map (·.2)).sum := by
    unfold wsum; rw [List.filter_eq_self.2 (by simp)]
  omega

theorem sum_wsum {E : List (Str × Int)} (es : List Str) (hnd : es.Nodup) :
    (es.map (fun x => wsum E (fun e => e = x))).sum = wsum E (fun e => e ∈ es) := by
  induction es with
  | nil => simp [wsum_false]
  | cons x es ih =>
    rw [List.nodup_cons] at hnd
    rw [List.map_cons, List.sum_cons, ih hnd.2]
    have : wsum E (fun e => e ∈ x :: es) = wsum E (fun e => e = x ∨ e ∈ es) := wsum_congr (by simp)
    rw [this, wsum_or]
    intro e he hm; subst he; exact hnd.1 hm

theorem sum_wsum_disjoint {E : List (Str × Int)} (ws : List Str) (hnd : ws.Nodup) (P : Str → Str → Prop)
    (hd : ∀ w ∈ ws, ∀ w' ∈ ws, ∀ e, P w e → P w' e → w = w') :
    (ws.map (fun w => wsum E (P w))).sum = wsum E (fun e => ∃ w ∈ ws, P w e) := by
  induction ws with
  | nil => simp [wsum_false]
  | cons w ws ih =>
    rw [List.nodup_cons] at hnd
    rw [List.map_cons, List.sum_cons, ih hnd.2 (fun a ha b hb => hd a (by simp [ha]) b (by simp [hb])), ← wsum_or]
    · apply wsum_congr
      intro e _
      simp
    · rintro e h1 ⟨w', hw', h2⟩
      have := hd w (by simp) w' (by simp [hw']) e h1 h2
      subst this; exact hnd.1 hw'

/-- the sum of a row of distinct right parts is the weight of the eojeols it stands for -/
theorem sum_row {E : List (Str × Int)} (w : Str) (rs : List (Str × Int)) (hnd : (rs.map (·.1)).Nodup)
    (hc : ∀ rc ∈ rs, rc.2 = wsum E (fun e => e = w ++ rc.1)) :
    (rs.map (·.2)).sum = wsum E (fun e => ∃ rc ∈ rs, w ++ rc.1 = e) := by
  have h1 : rs.map (·.2) = (rs.map (fun rc => w ++ rc.1)).map (fun x => wsum E (fun e => e = x)) := by
    rw [List.map_map]
    apply List.map_congr_left
    intro rc h; exact hc rc h
  have h2 : (rs.map (fun rc => w ++ rc.1)).Nodup := by
    have e : rs.map (fun rc => w ++ rc.1) = (rs.map (·.1)).map (fun r => w ++ r) := by rw [List.map_map]; rfl
    rw [e]
    exact List.Pairwise.map _ (fun a b hab hh => hab (List.append_cancel_left hh)) hnd
  rw [h1, sum_wsum _ h2]
  apply wsum_congr
  intro e _
  rw [List.mem_map]

/-! ### consistent graphs -/

/-- every edge of one eojeol carries that eojeol's (positive) count -/
structure Cons (N : Str → Int) (s : State) : Prop where
  inv : Inv s
  edge : ∀ l r c, get2 s.lr l r = some c → l ≠ [] ∧ 0 < c ∧ c = N (l ++ r)

theorem removeEojeol_cons {N : Str → Int} {s : State} (h : Cons N s) (e : Str) :
    Cons N (removeEojeol s e (N e)) ∧ (removeEojeol s e (N e)).origin = s.origin ∧
    ∀ l r, get2 (removeEojeol s e (N e)).lr l r = if l ++ r = e then none else get2 s.lr l r := by
  have hg : ∀ l r, get2 (removeEojeol s e (N e)).lr l r = if l ++ r = e then none else get2 s.lr l r := by
    intro l r
    rw [get2_removeEojeol h.inv]
    cases hc : get2 s.lr l r with
    | none => simp
    | some v =>
      obtain ⟨h1, h2, h3⟩ := h.edge l r v hc
      by_cases he : l ++ r = e
      · rw [if_pos ⟨h1, he⟩, if_pos he, Option.bind_some, if_pos]
        rw [h3, he]; omega
      · rw [if_neg (fun hh => he hh.2), if_neg he]
  refine ⟨⟨inv_removeEojeol h.inv e (N e), ?_⟩, removeEojeol_origin s e (N e), hg⟩
  intro l r c hc
  rw [hg] at hc
  split at hc
  · cases hc
  · exact h.edge l r c hc

theorem claimRow_cons {N : Str → Int} (w : Str) (rs : List (Str × Int)) (hrs : ∀ rc ∈ rs, rc.2 = N (w ++ rc.1)) {s : State}
    (h : Cons N s) :
    Cons N (rs.foldl (fun g rc => removeEojeol g (w ++ rc.1) rc.2) s) ∧
    (rs.foldl (fun g rc => removeEojeol g (w ++ rc.1) rc.2) s).origin = s.origin ∧
    ∀ l r, (∃ rc ∈ rs, w ++ rc.1 = l ++ r) ∧ get2 (rs.foldl (fun g rc => removeEojeol g (w ++ rc.1) rc.2) s).lr l r = none ∨
      (¬ ∃ rc ∈ rs, w ++ rc.1 = l ++ r) ∧ get2 (rs.foldl (fun g rc => removeEojeol g (w ++ rc.1) rc.2) s).lr l r = get2 s.lr l r := by
  induction rs generalizing s with
  | nil => exact ⟨h, rfl, fun l r => Or.inr ⟨by simp, rfl⟩⟩
  | cons rc rs ih =>
    rw [List.foldl_cons]
    have e : rc.2 = N (w ++ rc.1) := hrs rc (by simp)
    obtain ⟨h1, h2, h3⟩ := removeEojeol_cons h (w ++ rc.1)
    rw [← e] at h1 h2 h3
    obtain ⟨h4, h5, h6⟩ := ih (fun x hx => hrs x (by simp [hx])) h1
    refine ⟨h4, h5.trans h2, ?_⟩
    intro l r
    rcases h6 l r with ⟨⟨x, hx, ex⟩, hn⟩ | ⟨hn, hg⟩
    · exact Or.inl ⟨⟨x, by simp [hx], ex⟩, hn⟩
    · rw [h3] at hg
      by_cases he : l ++ r = w ++ rc.1
      · rw [if_pos he] at hg
        exact Or.inl ⟨⟨rc, by simp, he.symm⟩, hg⟩
      · rw [if_neg he] at hg
        refine Or.inr ⟨?_, hg⟩
        rintro ⟨x, hx, ex⟩
        rcases List.mem_cons.1 hx with rfl | hx
        · exact he ex.symm
        · exact hn ⟨x, hx, ex⟩

theorem mem_getR_all {s : State} (h : Inv s) {l r : Str} {c : Int} : (r, c) ∈ getR s l (-1) ↔ get2 s.lr l r = some c := by
  unfold getR topK
  rw [if_neg (by omega), mem_sorted, Dict.mem_iff_get? (h.lr.row_wf l), get2_eq_row]

theorem getR_all_nodup {s : State} (h : Inv s) (l : Str) : ((getR s l (-1)).map (·.1)).Nodup := by
  unfold getR topK
  rw [if_neg (by omega)]
  exact (((sorted_perm _ _).map _).nodup_iff).2 (h.lr.row_wf l)

theorem getR_edge {N : Str → Int} {s : State} (h : Cons N s) {w : Str} : ∀ rc ∈ getR s w (-1), rc.2 = N (w ++ rc.1) := by
  rintro ⟨r, c⟩ hm
  exact (h.edge w r c ((mem_getR_all h.inv).1 hm)).2.2

/-- the eojeol `e` has an edge `w + r` allowed by `q` for one of the words -/
def ClaimedBy (q : Str → Str → Prop) (s : State) (ws : List Str) (e : Str) : Prop :=
  ∃ w ∈ ws, ∃ r, q w r ∧ (get2 s.lr w r).isSome = true ∧ w ++ r = e

/-- the loop: every word in turn takes the eojeols of its row allowed by `q`; the amounts are collected -/
def claimAll (q : Str → Str → Bool) (s : State) : List Str → State × List (Str × Int)
  | [] => (s, [])
  | w :: ws =>
    let rs := (getR s w (-1)).filter (fun rc => q w rc.1)
    let t := claimAll q (rs.foldl (fun g rc => removeEojeol g (w ++ rc.1) rc.2) s) ws
    (t.1, (w, (rs.map (·.2)).sum) :: t.2)

theorem claimAll_append (q : Str → Str → Bool) (s : State) (a b : List Str) :
    claimAll q s (a ++ b) = ((claimAll q (claimAll q s a).1 b).1, (claimAll q s a).2 ++ (claimAll q (claimAll q s a).1 b).2) := by
  induction a generalizing s with
  | nil => rfl
  | cons w a ih => simp only [List.cons_append, claimAll, ih]

theorem claimAll_words (q : Str → Str → Bool) (s : State) (ws : List Str) : (claimAll q s ws).2.map (·.1) = ws := by
  induction ws generalizing s with
  | nil => rfl
  | cons w ws ih => simp only [claimAll, List.map_cons, ih]

theorem mem_rs {s : State} (h : Inv s) (q : Str → Str → Bool) {w : Str} {rc : Str × Int} :
    rc ∈ (getR s w (-1)).filter (fun rc => q w rc.1) ↔ get2 s.lr w rc.1 = some rc.2 ∧ q w rc.1 = true := by
  rw [List.mem_filter, ← mem_getR_all h]

theorem exists_rs {s : State} (h : Inv s) (q : Str → Str → Bool) {w e : Str} :
    (∃ rc ∈ (getR s w (-1)).filter (fun rc => q w rc.1), w ++ rc.1 = e) ↔ ClaimedBy (fun w r => q w r = true) s [w] e := by
  unfold ClaimedBy
  constructor
  · rintro ⟨rc, hm, he⟩
    obtain ⟨h1, h2⟩ := (mem_rs h q).1 hm
    exact ⟨w, by simp, rc.1, h2, by rw [h1]; rfl, he⟩
  · rintro ⟨w', hw', r, h2, h1, he⟩
    have : w' = w := by simpa using hw'
    subst this
    obtain ⟨c, hc⟩ := Option.isSome_iff_exists.1 h1
    exact ⟨(r, c), (mem_rs h q).2 ⟨hc, h2⟩, he⟩

/-- the edges left, and the eojeols a later list of words can claim -/
theorem claimAll_state {N : Str → Int} (q : Str → Str → Bool) {s : State} (h : Cons N s) (ws : List Str) :
    Cons N (claimAll q s ws).1 ∧ (claimAll q s ws).1.origin = s.origin ∧
    ∀ l r, ClaimedBy (fun w r => q w r = true) s ws (l ++ r) ∧ get2 (claimAll q s ws).1.lr l r = none ∨
      ¬ ClaimedBy (fun w r => q w r = true) s ws (l ++ r) ∧ get2 (claimAll q s ws).1.lr l r = get2 s.lr l r := by
  induction ws generalizing s with
  | nil => exact ⟨h, rfl, fun l r => Or.inr ⟨by rintro ⟨w, hw, _⟩; simp at hw, rfl⟩⟩
  | cons w ws ih =>
    have hrs : ∀ rc ∈ (getR s w (-1)).filter (fun rc => q w rc.1), rc.2 = N (w ++ rc.1) := fun rc hm =>
      getR_edge h rc (List.mem_filter.1 hm).1
    obtain ⟨h1, h2, h3⟩ := claimRow_cons w _ hrs h
    obtain ⟨h4, h5, h6⟩ := ih h1
    refine ⟨h4, h5.trans h2, ?_⟩
    intro l r
    show _ ∧ get2 (claimAll q _ ws).1.lr l r = none ∨ _ ∧ get2 (claimAll q _ ws).1.lr l r = _
    -- membership in the combined claim
    have hcons : ∀ e, ClaimedBy (fun w r => q w r = true) s (w :: ws) e ↔
        ClaimedBy (fun w r => q w r = true) s [w] e ∨ ClaimedBy (fun w r => q w r = true) s ws e := by
      intro e
      unfold ClaimedBy
      constructor
      · rintro ⟨w', hw', rest⟩
        rcases List.mem_cons.1 hw' with hw' | hw'
        · exact Or.inl ⟨w', by simp [hw'], rest⟩
        · exact Or.inr ⟨w', hw', rest⟩
      · rintro (⟨w', hw', rest⟩ | ⟨w', hw', rest⟩)
        · exact ⟨w', by simp at hw'; simp [hw'], rest⟩
        · exact ⟨w', by simp [hw'], rest⟩
    have hlater : ∀ e, ¬ ClaimedBy (fun w r => q w r = true) s [w] e →
        (ClaimedBy (fun w r => q w r = true) (((getR s w (-1)).filter (fun rc => q w rc.1)).foldl (fun g rc => removeEojeol g (w ++ rc.1) rc.2) s) ws e ↔
         ClaimedBy (fun w r => q w r = true) s ws e) := by
      intro e hn
      unfold ClaimedBy
      constructor
      · rintro ⟨w', hw', r', hq, hs, he⟩
        refine ⟨w', hw', r', hq, ?_, he⟩
        rcases h3 w' r' with ⟨_, hg⟩ | ⟨_, hg⟩
        · rw [hg] at hs; cases hs
        · rw [hg] at hs; exact hs
      · rintro ⟨w', hw', r', hq, hs, he⟩
        refine ⟨w', hw', r', hq, ?_, he⟩
        rcases h3 w' r' with ⟨hx, _⟩ | ⟨_, hg⟩
        · rw [exists_rs h.inv q, he] at hx; exact absurd hx hn
        · rw [hg]; exact hs
    by_cases hw : ClaimedBy (fun w r => q w r = true) s [w] (l ++ r)
    · left
      refine ⟨(hcons _).2 (Or.inl hw), ?_⟩
      rcases h6 l r with ⟨_, hg⟩ | ⟨_, hg⟩
      · exact hg
      · rw [hg]
        rcases h3 l r with ⟨_, hg'⟩ | ⟨hn, _⟩
        · exact hg'
        · rw [exists_rs h.inv q] at hn; exact absurd hw hn
    · rcases h6 l r with ⟨hc, hg⟩ | ⟨hc, hg⟩
      · exact Or.inl ⟨(hcons _).2 (Or.inr ((hlater _ hw).1 hc)), hg⟩
      · right
        refine ⟨fun hh => ?_, ?_⟩
        · rcases (hcons _).1 hh with hh | hh
          · exact hw hh
          · exact hc ((hlater _ hw).2 hh)
        · rw [hg]
          rcases h3 l r with ⟨hx, _⟩ | ⟨_, hg'⟩
          · rw [exists_rs h.inv q] at hx; exact absurd hx hw
          · exact hg'

/-- what can be claimed after `pre` has been claimed -/
theorem claimedBy_after {N : Str → Int} (q : Str → Str → Bool) {s : State} (h : Cons N s) (pre ws : List Str) (e : Str) :
    ClaimedBy (fun w r => q w r = true) (claimAll q s pre).1 ws e ↔
      ¬ ClaimedBy (fun w r => q w r = true) s pre e ∧ ClaimedBy (fun w r => q w r = true) s ws e := by
  obtain ⟨_, _, h3⟩ := claimAll_state q h pre
  constructor
  · rintro ⟨w, hw, r, hq, hs, rfl⟩
    rcases h3 w r with ⟨_, hg⟩ | ⟨hn, hg⟩
    · rw [hg] at hs; cases hs
    · rw [hg] at hs; exact ⟨hn, w, hw, r, hq, hs, rfl⟩
  · rintro ⟨hn, w, hw, r, hq, hs, rfl⟩
    refine ⟨w, hw, r, hq, ?_, rfl⟩
    rcases h3 w r with ⟨hx, _⟩ | ⟨_, hg⟩
    · exact absurd hx hn
    · rw [hg]; exact hs

/-- the amount claimed by one word -/
theorem claim_amount {E : List (Str × Int)} (q : Str → Str → Bool) {s : State} (h : Cons (fun x => wsum E (fun e => e = x)) s) (w : Str) :
    (((getR s w (-1)).filter (fun rc => q w rc.1)).map (·.2)).sum = wsum E (ClaimedBy (fun w r => q w r = true) s [w]) := by
  rw [sum_row (E := E) w _ ?_ ?_]
  · exact wsum_congr (fun e _ => exists_rs h.inv q)
  · exact (List.filter_sublist.map _).nodup (getR_all_nodup h.inv w)
  · intro rc hm
    exact getR_edge h rc (List.mem_filter.1 hm).1

/-- the amount claimed by a word of the list: the eojeols of its row not claimed by the words before it -/
theorem claimAll_amount {E : List (Str × Int)} (q : Str → Str → Bool) {s : State} (h : Cons (fun x => wsum E (fun e => e = x)) s)
    (pre : List Str) (w : Str) (post : List Str) :
    ∃ rest, (claimAll q s (pre ++ w :: post)).2 = (claimAll q s pre).2 ++
      (w, wsum E (fun e => ¬ ClaimedBy (fun w r => q w r = true) s pre e ∧ ClaimedBy (fun w r => q w r = true) s [w] e)) :: rest := by
  rw [claimAll_append]
  have hc := (claimAll_state q h pre).1
  have := claim_amount q hc w
  simp only [claimAll]
  rw [this]
  rw [wsum_congr (P := ClaimedBy (fun w r => q w r = true) (claimAll q s pre).1 [w])
    (Q := fun e => ¬ ClaimedBy (fun w r => q w r = true) s pre e ∧ ClaimedBy (fun w r => q w r = true) s [w] e)
    (fun e _ => claimedBy_after q h pre [w] e.1)]
  exact ⟨_, rfl⟩

/-- the total claimed -/
theorem claimAll_total {E : List (Str × Int)} (q : Str → Str → Bool) {s : State} (h : Cons (fun x => wsum E (fun e => e = x)) s)
    (ws : List Str) : ((claimAll q s ws).2.map (·.2)).sum = wsum E (ClaimedBy (fun w r => q w r = true) s ws) := by
  induction ws generalizing s with
  | nil =>
    show (0 : Int) = _
    rw [← wsum_false E]
    apply wsum_congr
    intro e _
    constructor
    · exact False.elim
    · rintro ⟨w, hw, _⟩; simp at hw
  | cons w ws ih =>
    have hc := (claimAll_state q h [w]).1
    have e1 : claimAll q s (w :: ws) = ((claimAll q (claimAll q s [w]).1 ws).1, (claimAll q s [w]).2 ++ (claimAll q (claimAll q s [w]).1 ws).2) :=
      claimAll_append q s [w] ws
    rw [e1]
    show ((_ ++ _ : List (Str × Int)).map (·.2)).sum = _
    rw [List.map_append, List.sum_append, ih hc]
    have e2 : ((claimAll q s [w]).2.map (·.2)).sum = wsum E (ClaimedBy (fun w r => q w r = true) s [w]) := by
      rw [← claim_amount q h w]; simp [claimAll]
    rw [e2, wsum_congr (P := ClaimedBy (fun w r => q w r = true) (claimAll q s [w]).1 ws)
      (Q := fun e => ¬ ClaimedBy (fun w r => q w r = true) s [w] e ∧ ClaimedBy (fun w r => q w r = true) s ws e)
      (fun e _ => claimedBy_after q h [w] ws e.1), ← wsum_or (fun e h1 h2 => h2.1 h1)]
    apply wsum_congr
    intro e _
    unfold ClaimedBy
    constructor
    · rintro (⟨w', hw', rest⟩ | ⟨_, w', hw', rest⟩)
      · exact ⟨w', by simp at hw'; simp [hw'], rest⟩
      · exact ⟨w', by simp [hw'], rest⟩
    · rintro ⟨w', hw', rest⟩
      by_cases hx : ∃ w'' ∈ [w], ∃ r, q w'' r = true ∧ (get2 s.lr w'' r).isSome = true ∧ w'' ++ r = e.1
      · exact Or.inl hx
      · rcases List.mem_cons.1 hw' with hw' | hw'
        · exact Or.inl ⟨w', by simp [hw'], rest⟩
        · exact Or.inr ⟨hx, w', hw', rest⟩

end LR
