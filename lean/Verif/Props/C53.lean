import Verif.Props.C30_C32
/-! C53: `WordExtractor.words`, `word_scores` and `extract`. -/
namespace Props
open Py WX

/-- the score passes every threshold -/
structure Passes (c : Cuts) (word : Str) (sc : Scores) : Prop where
  leftBE : c.minLeftBE ≤ sc.leftBE
  rightBE : c.minRightBE ≤ sc.rightBE
  leftAV : c.minLeftAV ≤ sc.leftAV
  rightAV : c.minRightAV ≤ sc.rightAV
  freq : c.minFrequency ≤ sc.leftFreq ∨ c.minFrequency ≤ sc.rightFreq
  cohesion : 2 ≤ word.length → c.minCohesionForward ≤ sc.cohesionForward ∧ c.minCohesionBackward ≤ sc.cohesionBackward

/-- `word` explains away `word[:-1]`: its left frequency is more than `max_droprate` of that of `word[:-1]` -/
def Absorbs (c : Cuts) (L : Dict Str Nat) (word : Str) (sc : Scores) : Prop :=
  match Dict.get? L word.dropLast with
  | none => c.maxDroprate < 0
  | some n => c.maxDroprate < (sc.leftFreq : ℝ) / (n : ℝ)

open Classical in
private theorem step_eq (c : Cuts) (L : Dict Str Nat) (acc : Dict Str Scores) (word : Str) (sc : Scores) (hne : word ≠ []) (w : Str) :
    Dict.get? (extractStep c L acc (word, sc)) w =
      if Passes c word sc then
        if w = word then some sc
        else if w = word.dropLast ∧ c.removeSubwords = true ∧ Absorbs c L word sc then none else Dict.get? acc w
      else Dict.get? acc w := by
  have hd : word.dropLast ≠ word := by
    intro h; have := congrArg List.length h; rw [List.length_dropLast] at this
    have := List.length_pos_iff.2 hne; omega
  unfold extractStep
  dsimp only
  by_cases h1 : sc.leftBE < c.minLeftBE ∨ sc.rightBE < c.minRightBE ∨ (sc.leftAV : Int) < c.minLeftAV ∨
      (sc.rightAV : Int) < c.minRightAV ∨ ((max sc.leftFreq sc.rightFreq : Nat) : Int) < c.minFrequency
  · rw [if_pos h1, if_neg]
    rintro ⟨a1, a2, a3, a4, a5, _⟩
    rcases h1 with h | h | h | h | h
    · exact absurd a1 (not_le.2 h)
    · exact absurd a2 (not_le.2 h)
    · omega
    · omega
    · omega
  · rw [if_neg h1]
    by_cases h2 : word.length ≥ 2 ∧ (sc.cohesionForward < c.minCohesionForward ∨ sc.cohesionBackward < c.minCohesionBackward)
    · rw [if_pos h2, if_neg]
      rintro ⟨_, _, _, _, _, a6⟩
      have := a6 h2.1
      rcases h2.2 with h | h
      · exact absurd this.1 (not_le.2 h)
      · exact absurd this.2 (not_le.2 h)
    · have hpass : Passes c word sc := by
        simp only [not_or, not_lt] at h1
        refine ⟨h1.1, h1.2.1, h1.2.2.1, h1.2.2.2.1, ?_, fun hl => ?_⟩
        · have := h1.2.2.2.2; omega
        · by_contra hc
          apply h2
          refine ⟨hl, ?_⟩
          by_contra hc'
          simp only [not_or, not_lt] at hc'
          exact hc hc'
      rw [if_neg h2, if_pos hpass]
      by_cases hr : c.removeSubwords = false
      · rw [if_pos hr, Dict.get?_set]
        by_cases hw : w = word
        · rw [if_pos hw.symm, if_pos hw]
        · rw [if_neg (Ne.symm hw), if_neg hw, if_neg (by rw [hr]; simp)]
      · have hr' : c.removeSubwords = true := by simpa using hr
        rw [if_neg hr]
        have habs : (match Dict.get? L word.dropLast with
            | none => (0 : ℝ)
            | some n => (sc.leftFreq : ℝ) / (n : ℝ)) > c.maxDroprate ↔ Absorbs c L word sc := by
          unfold Absorbs
          cases Dict.get? L word.dropLast <;> exact Iff.rfl
        by_cases ha : Absorbs c L word sc
        · by_cases hh : Dict.has (Dict.set acc word sc) word.dropLast = true
          · rw [if_pos ⟨habs.2 ha, hh⟩, Dict.get?_erase, Dict.get?_set]
            by_cases hw : w = word
            · rw [if_pos hw, if_neg (by rw [hw]; exact hd), if_pos hw.symm]
            · rw [if_neg hw, if_neg (Ne.symm hw)]
              by_cases hs : w = word.dropLast
              · rw [if_pos hs.symm, if_pos ⟨hs, hr', ha⟩]
              · rw [if_neg (Ne.symm hs), if_neg (fun h => hs h.1)]
          · rw [if_neg (fun h => hh h.2), Dict.get?_set]
            by_cases hw : w = word
            · rw [if_pos hw.symm, if_pos hw]
            · rw [if_neg (Ne.symm hw), if_neg hw]
              by_cases hs : w = word.dropLast
              · rw [if_pos ⟨hs, hr', ha⟩]
                rw [Dict.has, Dict.get?_set, if_neg hd.symm] at hh
                rw [hs]; simpa using hh
              · rw [if_neg (fun h => hs h.1)]
        · rw [if_neg (fun h => ha (habs.1 h.1)), Dict.get?_set]
          by_cases hw : w = word
          · rw [if_pos hw.symm, if_pos hw]
          · rw [if_neg (Ne.symm hw), if_neg hw, if_neg (fun h => ha h.2.2)]

private theorem fold_eq (c : Cuts) (L : Dict Str Nat) (items : List (Str × Scores)) (hne : ∀ e ∈ items, e.1 ≠ [])
    (hs : items.Pairwise (fun a b => a.1.length ≤ b.1.length)) (wf : (items.map (·.1)).Nodup) (w : Str) (sc : Scores) :
    Dict.get? (items.foldl (extractStep c L) []) w = some sc ↔
      (w, sc) ∈ items ∧ Passes c w sc ∧ ¬ (c.removeSubwords = true ∧ ∃ e ∈ items, e.1.dropLast = w ∧ Passes c e.1 e.2 ∧ Absorbs c L e.1 e.2) := by
  induction items using List.reverseRecOn generalizing sc with
  | nil => simp
  | append_singleton xs x ih =>
    obtain ⟨word, s⟩ := x
    have hword : word ≠ [] := hne (word, s) (by simp)
    have hlen : ∀ e ∈ xs, e.1.length ≤ word.length := fun e he => (List.pairwise_append.1 hs).2.2 e he (word, s) (by simp)
    have hnd := wf
    rw [List.map_append, List.nodup_append] at hnd
    have hfresh : ∀ e ∈ xs, e.1 ≠ word := fun e he => hnd.2.2 e.1 (List.mem_map.2 ⟨e, he, rfl⟩) word (by simp)
    have ih' := ih (fun e he => hne e (by simp [he])) (List.pairwise_append.1 hs).1 hnd.1
    rw [List.foldl_append, List.foldl_cons, List.foldl_nil, step_eq c L _ word s hword w]
    have hmem : ∀ v : Scores, (w, v) ∈ xs ++ [(word, s)] ↔ (w, v) ∈ xs ∨ (w = word ∧ v = s) := by
      intro v; simp
    rw [hmem]
    have hposd : word.dropLast.length + 1 = word.length := by
      rw [List.length_dropLast]; have := List.length_pos_iff.2 hword; omega
    by_cases hp : Passes c word s
    · rw [if_pos hp]
      by_cases hw : w = word
      · rw [if_pos hw]
        subst hw
        constructor
        · intro h; cases h
          refine ⟨Or.inr ⟨rfl, rfl⟩, hp, ?_⟩
          rintro ⟨_, e, he, hd, _⟩
          rcases List.mem_append.1 he with he | he
          · have h1 := hlen e he
            have h2 := congrArg List.length hd
            rw [List.length_dropLast] at h2
            have h3 := List.length_pos_iff.2 (hne e (by simp [he]))
            omega
          · simp at he; subst he
            have h2 := congrArg List.length hd
            dsimp only at h2
            omega
        · rintro ⟨h | h, _⟩
          · exact absurd rfl (hfresh _ h)
          · rw [h.2]
      · rw [if_neg hw]
        by_cases hq : w = word.dropLast ∧ c.removeSubwords = true ∧ Absorbs c L word s
        · rw [if_pos hq]
          constructor
          · intro h; cases h
          · rintro ⟨_, _, h⟩
            exact absurd ⟨hq.2.1, (word, s), by simp, hq.1.symm, hp, hq.2.2⟩ h
        · rw [if_neg hq, ih' sc]
          constructor
          · rintro ⟨a, b, d⟩
            refine ⟨Or.inl a, b, ?_⟩
            rintro ⟨hr, e, he, h1, h2, h3⟩
            rcases List.mem_append.1 he with he | he
            · exact d ⟨hr, e, he, h1, h2, h3⟩
            · simp at he; subst he
              exact hq ⟨h1.symm, hr, h3⟩
          · rintro ⟨a | a, b, d⟩
            · exact ⟨a, b, fun ⟨hr, e, he, h⟩ => d ⟨hr, e, List.mem_append_left _ he, h⟩⟩
            · exact absurd a.1 hw
    · rw [if_neg hp, ih' sc]
      constructor
      · rintro ⟨a, b, d⟩
        refine ⟨Or.inl a, b, ?_⟩
        rintro ⟨hr, e, he, h1, h2, h3⟩
        rcases List.mem_append.1 he with he | he
        · exact d ⟨hr, e, he, h1, h2, h3⟩
        · simp at he; subst he
          exact hp h2
      · rintro ⟨a | a, b, d⟩
        · exact ⟨a, b, fun ⟨hr, e, he, h⟩ => d ⟨hr, e, List.mem_append_left _ he, h⟩⟩
        · obtain ⟨rfl, rfl⟩ := a; exact absurd b hp

/-- **C53** `extract(scores)` returns exactly the scored words that pass every threshold and, with `remove_subwords`, are not
    absorbed by a passing word one character longer; the scores are returned unchanged. -/
theorem C53_extract (c : Cuts) (L : Dict Str Nat) (scores : Dict Str Scores) (wf : scores.WF) (hne : ∀ e ∈ scores, e.1 ≠ [])
    (w : Str) (sc : Scores) :
    Dict.get? (extract c L scores) w = some sc ↔
      Dict.get? scores w = some sc ∧ Passes c w sc ∧
        ¬ (c.removeSubwords = true ∧ ∃ e ∈ scores, e.1.dropLast = w ∧ Passes c e.1 e.2 ∧ Absorbs c L e.1 e.2) := by
  unfold extract
  have htp : TotalPre (fun a b : Str × Scores => decide (a.1.length ≤ b.1.length)) := by
    refine ⟨fun a b c h1 h2 => ?_, fun a b => ?_⟩
    · simp only [decide_eq_true_eq] at *; omega
    · simp only [decide_eq_true_eq] at *; omega
  have hp := sorted_perm (fun a b : Str × Scores => decide (a.1.length ≤ b.1.length)) scores
  rw [fold_eq c L _ (fun e he => hne e (hp.mem_iff.1 he)) ((pairwise_sorted htp scores).imp (fun h => by simpa using h))
    ((hp.map _).nodup_iff.2 wf), hp.mem_iff, Dict.mem_iff_get? wf]
  simp only [hp.mem_iff]

/-- the defaults let a common word through; with `remove_subwords` and the same count, its prefix is dropped -/
example : Passes {} "ab".toList ⟨1, 1, 0, 0, 0, 0, 7, 0⟩ ∧
    Absorbs { removeSubwords := true } [(['a'], 7)] "ab".toList ⟨1, 1, 0, 0, 0, 0, 7, 0⟩ := by
  refine ⟨⟨le_refl _, le_refl _, by decide, by decide, by decide, fun _ => ⟨?_, ?_⟩⟩, ?_⟩
  · show (1 / 20 : ℝ) ≤ 1; norm_num
  · show (0 : ℝ) ≤ 1; norm_num
  · show (98 / 100 : ℝ) < ((7 : Nat) : ℝ) / ((7 : Nat) : ℝ); norm_num

/-! ## stored counts are positive -/

private theorem pos_incAll {d : Dict Str Nat} (h : ∀ e ∈ d, 0 < e.2) (wf : d.WF) (ks : List Str) : ∀ e ∈ incAll d ks, 0 < e.2 := by
  rintro ⟨k, v⟩ hm
  have hg := (Dict.mem_iff_get? (wf_incAll wf ks)).1 hm
  have h1 := getD_incAll d ks k
  rw [Dict.getD, hg, Option.getD_some] at h1
  rcases (mem_keys_incAll d ks k).1 (List.mem_map.2 ⟨_, hm, rfl⟩) with hk | hk
  · obtain ⟨⟨k', n⟩, he, rfl⟩ := List.mem_map.1 hk
    have := h _ he
    rw [Dict.getD, Dict.get?_of_mem wf he] at h1
    simp at h1 this ⊢; omega
  · have := List.count_pos_iff.2 hk
    simp; omega

private theorem key_ne (p : Params) (ws : List Str) : (∀ k ∈ leftKeys p ws, k ≠ []) ∧ (∀ k ∈ rightKeys p ws, k ≠ []) := by
  constructor <;> intro k hk
  · simp only [leftKeys, List.mem_flatMap] at hk
    obtain ⟨t, _, hk⟩ := hk
    split at hk
    · cases hk
    · exact (mem_lefts.1 hk).1
  · simp only [rightKeys, List.mem_flatMap] at hk
    obtain ⟨t, _, hk⟩ := hk
    split at hk
    · cases hk
    · exact (mem_rights.1 hk).1

private def Pos (s : State) : Prop := (∀ e ∈ s.L, 0 < e.2 ∧ e.1 ≠ []) ∧ (∀ e ∈ s.R, 0 < e.2 ∧ e.1 ≠ [])

private theorem pos_inc2 {d : Dict Str Nat} (wf : d.WF) (h : ∀ e ∈ d, 0 < e.2 ∧ e.1 ≠ []) (ks : List Str) (hk : ∀ k ∈ ks, k ≠ []) :
    ∀ e ∈ incAll d ks, 0 < e.2 ∧ e.1 ≠ [] := by
  intro e he
  refine ⟨pos_incAll (fun e he => (h e he).1) wf ks e he, ?_⟩
  rcases (mem_keys_incAll d ks e.1).1 (List.mem_map.2 ⟨_, he, rfl⟩) with hm | hm
  · obtain ⟨e', he', h'⟩ := List.mem_map.1 hm
    rw [← h']; exact (h e' he').2
  · exact hk _ hm

private theorem pos_trainSent {p : Params} {k : Int} {s : State} (hg : Good s) (h : Pos s) (si : Str × Nat) : Pos (trainSent p k s si) := by
  have a1 := pos_inc2 hg.wL h.1 (leftKeys p (splitWs si.1)) (key_ne p _).1
  have a2 := pos_inc2 hg.wR h.2 (rightKeys p (splitWs si.1)) (key_ne p _).2
  unfold trainSent; dsimp only
  split
  · exact ⟨a1, a2⟩
  · split
    · exact ⟨fun e he => a1 e (List.mem_filter.1 he).1, fun e he => a2 e (List.mem_filter.1 he).1⟩
    · exact ⟨a1, a2⟩

private theorem pos_fold {p : Params} {k : Int} (sis : List (Str × Nat)) {s : State} (hg : Good s) (h : Pos s) :
    Pos (sis.foldl (trainSent p k) s) := by
  induction sis generalizing s with
  | nil => exact h
  | cons x xs ih => exact ih (hg.trainSent p k x) (pos_trainSent hg h x)

/-- **C53** Every stored count of a trained extractor is positive and no key is empty (so `extract` never divides by 0). -/
theorem C53_positive (p : Params) (s : State) (h : Trained p s) :
    (∀ e ∈ s.L, 0 < e.2 ∧ e.1 ≠ []) ∧ (∀ e ∈ s.R, 0 < e.2 ∧ e.1 ≠ []) := by
  have : Good s ∧ Pos s := by
    induction h with
    | fresh => exact ⟨good_init, (by intro e he; cases he), (by intro e he; cases he)⟩
    | @step s0 s1 sents k c _ e ih =>
      refine ⟨ih.1.train e, ?_⟩
      unfold train at e
      split at e
      · cases e
      · have e' := Except.ok.inj e
        rw [← e']
        have h0 : Good (if c = true then s0 else {}) ∧ Pos (if c = true then s0 else {}) := by
          split
          · exact ih
          · exact ⟨good_init, (by intro e he; cases he), (by intro e he; cases he)⟩
        have := pos_fold (p := p) (k := k) sents.zipIdx h0.1 h0.2
        exact ⟨fun e he => this.1 e (List.mem_filter.1 he).1, fun e he => this.2 e (List.mem_filter.1 he).1⟩
    | @feed s0 corpus k c h0 ih =>
      refine ⟨(Trained.feed corpus k c h0).good, ?_⟩
      have h1 : Good (if c = true then s0 else {}) ∧ Pos (if c = true then s0 else {}) := by
        split
        · exact ih
        · exact ⟨good_init, (by intro e he; cases he), (by intro e he; cases he)⟩
      have h2 := pos_fold (p := p) (k := k) (corpus.pass 0).sents.zipIdx h1.1 h1.2
      unfold Feed.wordTrain
      split
      · exact ih.2
      · dsimp only
        split
        · exact h2
        · exact ⟨fun e he => h2.1 e (List.mem_filter.1 he).1, fun e he => h2.2 e (List.mem_filter.1 he).1⟩
  exact this.2

private theorem inc_pos (ks : List Str) : ∀ {d : Dict Str Nat}, d.WF → (∀ e ∈ d, 0 < e.2) → ∀ e ∈ incAll d ks, 0 < e.2 := by
  intro d wf h e he
  have hw := wf_incAll wf ks
  have hg := (Dict.mem_iff_get? hw).1 he
  have h1 := getD_incAll d ks e.1
  have h2 := mem_keys_incAll d ks e.1
  have hk : e.1 ∈ Dict.keys (incAll d ks) := List.mem_map.2 ⟨e, he, rfl⟩
  have h3 : Dict.getD (incAll d ks) e.1 0 = e.2 := by unfold Dict.getD; rw [hg]; rfl
  rw [h3] at h1
  rcases h2.1 hk with h4 | h4
  · obtain ⟨x, hx, hxe⟩ := List.mem_map.1 h4
    have h5 := Dict.get?_of_mem wf (show (e.1, x.2) ∈ d by rw [← hxe]; exact hx)
    have h6 : Dict.getD d e.1 0 = x.2 := by unfold Dict.getD; rw [h5]; rfl
    have := h x hx
    omega
  · have := List.count_pos_iff.2 h4
    omega

/-- the counts of the neighbour tables are positive too -/
theorem wx_boundary_pos {p : Params} {s : State} (h : Trained p s) : (∀ e ∈ s.aL, 0 < e.2) ∧ (∀ e ∈ s.aR, 0 < e.2) := by
  have sent : ∀ (k : Int) (s : State) (x : Str × Nat), Good s → ((∀ e ∈ s.aL, 0 < e.2) ∧ (∀ e ∈ s.aR, 0 < e.2)) →
      (∀ e ∈ (trainSent p k s x).aL, 0 < e.2) ∧ (∀ e ∈ (trainSent p k s x).aR, 0 < e.2) := by
    intro k s x hg hp
    unfold trainSent
    dsimp only
    split
    · exact hp
    · split
      · exact ⟨inc_pos _ hg.waL hp.1, inc_pos _ hg.waR hp.2⟩
      · exact ⟨inc_pos _ hg.waL hp.1, inc_pos _ hg.waR hp.2⟩
  have sents : ∀ (k : Int) (xs : List (Str × Nat)) (s : State), Good s → ((∀ e ∈ s.aL, 0 < e.2) ∧ (∀ e ∈ s.aR, 0 < e.2)) →
      (∀ e ∈ (xs.foldl (trainSent p k) s).aL, 0 < e.2) ∧ (∀ e ∈ (xs.foldl (trainSent p k) s).aR, 0 < e.2) := by
    intro k xs
    induction xs with
    | nil => intro s _ hp; exact hp
    | cons x xs ih => intro s hg hp; exact ih _ (hg.trainSent p k x) (sent k s x hg hp)
  induction h with
  | fresh => exact ⟨fun e he => by simp at he, fun e he => by simp at he⟩
  | step sents k c _ ht _ =>
    unfold train at ht
    split at ht
    · cases ht
    · cases ht
      refine ⟨fun e he => ?_, fun e he => ?_⟩ <;>
      · have := (List.mem_filter.1 he).2
        simp only [decide_eq_true_eq] at this
        omega
  | @feed s0 corpus k c h0 ih =>
    have h1 : Good (if c = true then s0 else {}) := by split; exact h0.good; exact good_init
    have h2 : (∀ e ∈ (if c = true then s0 else {} : State).aL, 0 < e.2) ∧ (∀ e ∈ (if c = true then s0 else {} : State).aR, 0 < e.2) := by
      split
      · exact ih
      · exact ⟨fun e he => by (cases he), fun e he => by (cases he)⟩
    have h3 := sents k (corpus.pass 0).sents.zipIdx _ h1 h2
    unfold Feed.wordTrain
    split
    · exact ih
    · dsimp only
      split
      · exact h3
      · exact ⟨fun e he => h3.1 e (List.mem_filter.1 he).1, fun e he => h3.2 e (List.mem_filter.1 he).1⟩

private theorem allCohesion_ok (p : Params) (s : State) (h : Trained p s) (ws : List Str) (cps : Dict Str (ℝ × ℝ)) :
    ∃ d, allCohesion s ws cps = .ok d ∧ ∀ w, w ∉ Dict.keys cps →
      (w ∈ ws → ∃ lr, cohesion s w = .ok lr ∧ Dict.getD d w (0, 0) = lr) ∧ (w ∉ ws → Dict.get? d w = none) := by
  have gen : ∀ (ws : List Str) (cps : Dict Str (ℝ × ℝ)), ∃ d, allCohesion s ws cps = .ok d ∧
      (∀ w, w ∉ ws → Dict.get? d w = Dict.get? cps w) ∧
      (∀ w, w ∈ ws → ∃ lr, cohesion s w = .ok lr ∧ (lr ≠ (0, 0) → Dict.get? d w = some lr) ∧ (lr = (0, 0) → Dict.get? d w = Dict.get? cps w)) := by
    intro ws
    induction ws with
    | nil => intro cps; exact ⟨cps, rfl, fun _ _ => rfl, by simp⟩
    | cons x xs ih =>
      intro cps
      obtain ⟨l, r, e, _⟩ := C31_cohesion p s h x
      obtain ⟨d, hd, h1, h2⟩ := ih (open Classical in if (l, r).1 = 0 ∧ (l, r).2 = 0 then cps else Dict.set cps x (l, r))
      refine ⟨d, by simp only [allCohesion, e]; exact hd, ?_, ?_⟩
      · intro w hw
        rw [h1 w (fun h => hw (by simp [h]))]
        split
        · rfl
        · rw [Dict.get?_set, if_neg]; rintro rfl; exact hw (by simp)
      · intro w hw
        by_cases hx : w = x
        · subst hx
          refine ⟨(l, r), e, ?_, ?_⟩
          · intro hne
            by_cases hxs : w ∈ xs
            · obtain ⟨lr, e', a, _⟩ := h2 w hxs
              rw [e] at e'; cases e'; exact a hne
            · rw [h1 w hxs, if_neg, Dict.get?_set, if_pos rfl]
              rintro ⟨a, b⟩; exact hne (Prod.ext a b)
          · intro h0
            have hc : (l, r).1 = 0 ∧ (l, r).2 = 0 := by rw [h0]; exact ⟨rfl, rfl⟩
            by_cases hxs : w ∈ xs
            · obtain ⟨lr, e', _, b⟩ := h2 w hxs
              rw [e] at e'; cases e'; rw [b h0, if_pos hc]
            · rw [h1 w hxs, if_pos hc]
        · obtain ⟨lr, e', a, b⟩ := h2 w ((List.mem_cons.1 hw).resolve_left hx)
          refine ⟨lr, e', a, fun h0 => ?_⟩
          rw [b h0]
          split
          · rfl
          · rw [Dict.get?_set, if_neg (Ne.symm hx)]
  obtain ⟨d, hd, h1, h2⟩ := gen ws cps
  refine ⟨d, hd, fun w hw => ⟨fun hm => ?_, fun hm => ?_⟩⟩
  · obtain ⟨lr, e, a, b⟩ := h2 w hm
    refine ⟨lr, e, ?_⟩
    by_cases h0 : lr = (0, 0)
    · rw [Dict.getD, b h0, (Dict.get?_eq_none_iff _ _).2 hw, h0]; rfl
    · rw [Dict.getD, a h0]; rfl
  · rw [h1 w hm, (Dict.get?_eq_none_iff _ _).2 hw]

private theorem foldl_set_fun {α : Type} (f : Str → α) (ws : List Str) (d : Dict Str α) (w : Str) :
    Dict.get? (ws.foldl (fun d w => Dict.set d w (f w)) d) w = if w ∈ ws then some (f w) else Dict.get? d w := by
  induction ws generalizing d with
  | nil => simp
  | cons x xs ih =>
    rw [List.foldl_cons, ih, Dict.get?_set]
    by_cases h1 : w ∈ xs
    · simp [h1]
    · by_cases h2 : x = w
      · subst h2; simp
      · simp [h1, h2, Ne.symm h2]

/-- **C53** `word_scores()` of a trained extractor never raises, whatever order the word set is enumerated in; it has an entry
    exactly for the words of the left table within `max_left_length` and of the right table within `max_right_length`, holding
    `cohesion_score(w)`, the counts, and the single-word branching entropy and accessor variety - of the left side for words shorter than
    `max_right_length`, of the right side for words shorter than `max_left_length`, otherwise 0. -/
theorem C53_word_scores (p : Params) (s : State) (h : Trained p s) (order : List Str) (ho : ∀ w, w ∈ order ↔ w ∈ words p s) :
    ∃ d, wordScores p s order = .ok d ∧ ∀ w,
      (Dict.has d w = true ↔ (w ∈ Dict.keys s.L ∧ (w.length : Int) ≤ p.maxLeft) ∨ (w ∈ Dict.keys s.R ∧ (w.length : Int) ≤ p.maxRight)) ∧
      ∀ sc, Dict.get? d w = some sc →
        cohesion s w = .ok (sc.cohesionForward, sc.cohesionBackward) ∧ (sc.leftFreq, sc.rightFreq) = frequency s w ∧
        sc.leftBE = (if (w.length : Int) < p.maxRight then (branchingEntropy s w).1 else 0) ∧
        sc.rightBE = (if (w.length : Int) < p.maxLeft then (branchingEntropy s w).2 else 0) ∧
        sc.leftAV = (if (w.length : Int) < p.maxRight then (accessorVariety s w).1 else 0) ∧
        sc.rightAV = (if (w.length : Int) < p.maxLeft then (accessorVariety s w).2 else 0) := by
  obtain ⟨cps, hc, hcp⟩ := allCohesion_ok p s h order []
  have hwmem : ∀ w, w ∈ words p s ↔ (w ∈ Dict.keys s.L ∧ (w.length : Int) ≤ p.maxLeft) ∨ (w ∈ Dict.keys s.R ∧ (w.length : Int) ≤ p.maxRight) := by
    intro w; unfold words; rw [List.mem_append, List.mem_filter, List.mem_filter, decide_eq_true_iff, decide_eq_true_iff]
  refine ⟨_, by unfold wordScores; rw [hc], fun w => ?_⟩
  rw [← hwmem, ← ho]
  dsimp only
  have hget := foldl_set_fun (fun w => (⟨(Dict.getD cps w (0, 0)).1, (Dict.getD cps w (0, 0)).2,
    (Dict.getD (allBranching entropy p s) w (0, 0)).1, (Dict.getD (allBranching entropy p s) w (0, 0)).2,
    (Dict.getD (allAccessorVariety p s) w (0, 0)).1, (Dict.getD (allAccessorVariety p s) w (0, 0)).2,
    Dict.getD s.L w 0, Dict.getD s.R w 0⟩ : Scores)) order [] w
  rw [Dict.has, hget]
  by_cases hm : w ∈ order
  · rw [if_pos hm]
    refine ⟨by simp [hm], ?_⟩
    intro sc e
    have e' := Option.some.inj e
    rw [← e']
    obtain ⟨lr, hl, hd⟩ := (hcp w (by simp)).1 hm
    refine ⟨by rw [hl, hd], rfl, ?_⟩
    have hne : w ≠ [] := by
      have hpos := C53_positive p s h
      rcases (hwmem w).1 ((ho w).1 hm) with ⟨hk, _⟩ | ⟨hk, _⟩
      · obtain ⟨x, hx, hxe⟩ := List.mem_map.1 hk; rw [← hxe]; exact (hpos.1 x hx).2
      · obtain ⟨x, hx, hxe⟩ := List.mem_map.1 hk; rw [← hxe]; exact (hpos.2 x hx).2
    obtain ⟨hav, hbe⟩ := C32_batch p s h w hne
    rw [hav, hbe]
    exact ⟨rfl, rfl, rfl, rfl⟩
  · rw [if_neg hm]
    refine ⟨by simp [hm], ?_⟩
    intro sc e; cases e

example : ∃ s, Trained { minFrequency := 1 } s ∧ "ab".toList ∈ words { minFrequency := 1 } s :=
  ⟨⟨[(['a'], 2), (['a', 'b'], 2)], [(['b'], 2)], [("ab a".toList, 2), ("b a".toList, 2)], [("b ab".toList, 2), ("b a".toList, 2)]⟩,
    .step ["ab ab".toList] 0 true .fresh (by decide +kernel), by decide +kernel⟩

end Props
