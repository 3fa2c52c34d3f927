import Verif.Model.WordExtractor
/-! Lemmas about the WordExtractor model. -/
namespace WX
open Py

/-! ### counting -/

theorem incAll_append (d : Dict Str Nat) (a b : List Str) : incAll d (a ++ b) = incAll (incAll d a) b := by
  simp [incAll, List.foldl_append]

theorem getD_incAll (d : Dict Str Nat) (ks : List Str) (w : Str) : Dict.getD (incAll d ks) w 0 = Dict.getD d w 0 + ks.count w := by
  have := Dict.getD_foldl_add ks id (fun _ => 1) d w
  simp only [id] at this
  unfold incAll; rw [this]
  have hf : (fun x => decide (x = w)) = (fun x => x == w) := by funext x; rw [Bool.eq_iff_iff]; simp
  simp [List.map_const', List.count_eq_countP, List.countP_eq_length_filter, hf]

theorem wf_incAll {d : Dict Str Nat} (h : d.WF) (ks : List Str) : (incAll d ks).WF := Dict.WF.foldl_add ks id (fun _ => 1) h

theorem mem_keys_incAll (d : Dict Str Nat) (ks : List Str) (w : Str) : w ∈ Dict.keys (incAll d ks) ↔ w ∈ Dict.keys d ∨ w ∈ ks := by
  have := Dict.mem_keys_foldl_add ks id (fun _ => 1) d w
  simp only [id] at this
  unfold incAll; rw [this]; simp

theorem get?_pruneMin {d : Dict Str Nat} (h : d.WF) (m : Int) (w : Str) :
    Dict.get? (pruneMin m d) w = (Dict.get? d w).filter (fun n : Nat => decide ((n : Int) ≥ m)) := Dict.get?_filter h _ _

theorem getD_pruneMin {d : Dict Str Nat} (h : d.WF) (m : Int) (w : Str) :
    Dict.getD (pruneMin m d) w 0 = if ((Dict.getD d w 0 : Nat) : Int) ≥ m then Dict.getD d w 0 else 0 := by
  simp only [Dict.getD, get?_pruneMin h]
  cases hg : Dict.get? d w with
  | none => simp
  | some n => by_cases hn : (n : Int) ≥ m <;> simp [Option.filter, hn]

theorem wf_pruneMin {d : Dict Str Nat} (h : d.WF) (m : Int) : (pruneMin m d).WF := h.filter _
theorem wf_pruneOne {d : Dict Str Nat} (h : d.WF) : (pruneOne d).WF := h.filter _

theorem mem_lefts {m : Int} {word w : Str} : w ∈ lefts m word ↔ w ≠ [] ∧ (w.length : Int) ≤ m + 1 ∧ w <+: word := by
  simp only [lefts, List.mem_map, List.mem_range]
  constructor
  · rintro ⟨i, hi, rfl⟩
    have h1 : i + 1 ≤ word.length := by omega
    refine ⟨?_, ?_, List.take_prefix _ _⟩
    · intro h; have := congrArg List.length h; rw [List.length_take, List.length_nil] at this; omega
    · simp; omega
  · rintro ⟨h1, h2, h3⟩
    have hl := h3.length_le
    have hp : 0 < w.length := List.length_pos_iff.2 h1
    refine ⟨w.length - 1, by omega, ?_⟩
    rw [show w.length - 1 + 1 = w.length by omega]
    exact (List.prefix_iff_eq_take.1 h3).symm

theorem nodup_lefts (m : Int) (word : Str) : (lefts m word).Nodup := by
  unfold lefts
  have : List.Nodup (List.range (min (m + 1) word.length).toNat) := List.nodup_range
  rw [List.nodup_iff_pairwise_ne, List.pairwise_map]
  refine List.Pairwise.imp_of_mem ?_ this
  intro a b ha hb hab h
  simp only [List.mem_range] at ha hb
  have := congrArg List.length h
  simp at this; omega

theorem mem_rights {m : Int} {word w : Str} : w ∈ rights m word ↔ w ≠ [] ∧ (w.length : Int) ≤ m ∧ w <:+ word ∧ w.length < word.length := by
  simp only [rights, List.mem_map, List.mem_range]
  constructor
  · rintro ⟨i, hi, rfl⟩
    have h1 : i + 1 < word.length := by omega
    refine ⟨?_, ?_, List.drop_suffix _ _, ?_⟩
    · intro h; have := congrArg List.length h; simp at this; omega
    · simp; omega
    · simp; omega
  · rintro ⟨h1, h2, h3, h4⟩
    have hp : 0 < w.length := List.length_pos_iff.2 h1
    refine ⟨w.length - 1, by omega, ?_⟩
    rw [show w.length - 1 + 1 = w.length by omega]
    exact (List.suffix_iff_eq_drop.1 h3).symm

theorem nodup_rights (m : Int) (word : Str) : (rights m word).Nodup := by
  unfold rights
  have : List.Nodup (List.range (min (m + 1) word.length - 1).toNat) := List.nodup_range
  rw [List.nodup_iff_pairwise_ne, List.pairwise_map]
  refine List.Pairwise.imp_of_mem ?_ this
  intro a b ha hb hab h
  simp only [List.mem_range] at ha hb
  have := congrArg List.length h
  simp at this; omega

theorem count_flatMap_indicator (ts : List Str) (f : Str → List Str) (P : Str → Bool) (w : Str)
    (hn : ∀ t ∈ ts, (f t).Nodup) (hp : ∀ t ∈ ts, w ∈ f t ↔ P t = true) : (ts.flatMap f).count w = ts.countP P := by
  induction ts with
  | nil => rfl
  | cons t ts ih =>
    rw [List.flatMap_cons, List.count_append, List.countP_cons, ih (fun x hx => hn x (by simp [hx])) (fun x hx => hp x (by simp [hx]))]
    have : (f t).count w = if P t = true then 1 else 0 := by
      split
      · rename_i h; exact List.count_eq_one_of_mem (hn t (by simp)) ((hp t (by simp)).2 h)
      · rename_i h; exact List.count_eq_zero_of_not_mem (fun hm => h ((hp t (by simp)).1 hm))
    omega

/-! ### training with no intermediate pruning -/

theorem foldl_trainSent_noprune (p : Params) {k : Int} (hk : k ≤ 0) (sents : List (Str × Nat)) (s : State) :
    (sents.foldl (trainSent p k) s).L = incAll s.L (sents.flatMap (fun si => leftKeys p (splitWs si.1))) ∧
    (sents.foldl (trainSent p k) s).R = incAll s.R (sents.flatMap (fun si => rightKeys p (splitWs si.1))) := by
  induction sents generalizing s with
  | nil => exact ⟨rfl, rfl⟩
  | cons x xs ih =>
    rw [List.foldl_cons, List.flatMap_cons, List.flatMap_cons, incAll_append, incAll_append]
    have h1 : (trainSent p k s x).L = incAll s.L (leftKeys p (splitWs x.1)) := by
      unfold trainSent; dsimp only; split
      · rfl
      · rw [if_neg (by omega)]
    have h2 : (trainSent p k s x).R = incAll s.R (rightKeys p (splitWs x.1)) := by
      unfold trainSent; dsimp only; split
      · rfl
      · rw [if_neg (by omega)]
    rw [← h1, ← h2]; exact ih _

/-! ### the invariant of every trained state -/

/-- bigger at the first (last) character than anywhere on its extensions -/
def MonoL (d : Dict Str Nat) : Prop := ∀ w, w ≠ [] → Dict.getD d w 0 ≤ Dict.getD d (w.take 1) 0
def MonoR (d : Dict Str Nat) : Prop := ∀ w, w ≠ [] → Dict.getD d w 0 ≤ Dict.getD d (w.drop (w.length - 1)) 0

/-- what every trained state satisfies -/
structure Good (s : State) : Prop where
  wL : s.L.WF
  wR : s.R.WF
  waL : s.aL.WF
  waR : s.aR.WF
  bL : ∀ k ∈ Dict.keys s.L, ' ' ∉ k
  bR : ∀ k ∈ Dict.keys s.R, ' ' ∉ k
  shL : ∀ k ∈ Dict.keys s.aL, ∃ w c, k = w ++ [' ', c] ∧ ' ' ∉ w ∧ c ≠ ' '
  shR : ∀ k ∈ Dict.keys s.aR, ∃ w c, k = c :: ' ' :: w ∧ ' ' ∉ w ∧ c ≠ ' '
  mL : MonoL s.L
  mR : MonoR s.R

theorem good_init : Good {} where
  wL := Dict.wf_nil
  wR := Dict.wf_nil
  waL := Dict.wf_nil
  waR := Dict.wf_nil
  bL := by intro k hk; cases hk
  bR := by intro k hk; cases hk
  shL := by intro k hk; cases hk
  shR := by intro k hk; cases hk
  mL := by intro w _; exact Nat.le_refl _
  mR := by intro w _; exact Nat.le_refl _

theorem count_flatMap_le (ts : List Str) (f : Str → List Str) (w v : Str)
    (hp : ∀ t ∈ ts, (f t).count w ≤ (f t).count v) : (ts.flatMap f).count w ≤ (ts.flatMap f).count v := by
  induction ts with
  | nil => exact Nat.le_refl _
  | cons t ts ih =>
    rw [List.flatMap_cons, List.count_append, List.count_append]
    exact Nat.add_le_add (hp t (by simp)) (ih (fun x hx => hp x (by simp [hx])))

theorem count_le_of_nodup {l : List Str} (h : l.Nodup) {w v : Str} (hm : w ∈ l → v ∈ l) : l.count w ≤ l.count v := by
  by_cases hw : w ∈ l
  · rw [List.count_eq_one_of_mem h hw, List.count_eq_one_of_mem h (hm hw)]
  · rw [List.count_eq_zero_of_not_mem hw]; exact Nat.zero_le _

theorem count_leftKeys_mono (p : Params) (words : List Str) (w : Str) (hw : w ≠ []) :
    (leftKeys p words).count w ≤ (leftKeys p words).count (w.take 1) := by
  apply count_flatMap_le
  intro t _
  split
  · exact Nat.le_refl _
  · apply count_le_of_nodup (nodup_lefts _ _)
    rw [mem_lefts, mem_lefts]
    rintro ⟨h1, h2, h3⟩
    have : 0 < w.length := List.length_pos_iff.2 hw
    refine ⟨?_, ?_, (List.take_prefix 1 w).trans h3⟩
    · intro h; have := congrArg List.length h; rw [List.length_take, List.length_nil] at this; omega
    · simp; omega

theorem count_rightKeys_mono (p : Params) (words : List Str) (w : Str) (hw : w ≠ []) :
    (rightKeys p words).count w ≤ (rightKeys p words).count (w.drop (w.length - 1)) := by
  apply count_flatMap_le
  intro t _
  split
  · exact Nat.le_refl _
  · apply count_le_of_nodup (nodup_rights _ _)
    rw [mem_rights, mem_rights]
    rintro ⟨h1, h2, h3, h4⟩
    have : 0 < w.length := List.length_pos_iff.2 hw
    refine ⟨?_, ?_, (List.drop_suffix _ w).trans h3, ?_⟩
    · intro h; have := congrArg List.length h; simp at this; omega
    · simp; omega
    · simp; omega

theorem MonoL.incAll {d : Dict Str Nat} (h : MonoL d) (p : Params) (words : List Str) : MonoL (incAll d (leftKeys p words)) := by
  intro w hw
  rw [getD_incAll, getD_incAll]
  exact Nat.add_le_add (h w hw) (count_leftKeys_mono p words w hw)

theorem MonoR.incAll {d : Dict Str Nat} (h : MonoR d) (p : Params) (words : List Str) : MonoR (incAll d (rightKeys p words)) := by
  intro w hw
  rw [getD_incAll, getD_incAll]
  exact Nat.add_le_add (h w hw) (count_rightKeys_mono p words w hw)

theorem MonoL.prune {d : Dict Str Nat} (h : MonoL d) (wf : d.WF) (m : Int) : MonoL (pruneMin m d) := by
  intro w hw
  rw [getD_pruneMin wf, getD_pruneMin wf]
  have := h w hw
  split
  · rw [if_pos (by omega)]; exact this
  · exact Nat.zero_le _

theorem MonoR.prune {d : Dict Str Nat} (h : MonoR d) (wf : d.WF) (m : Int) : MonoR (pruneMin m d) := by
  intro w hw
  rw [getD_pruneMin wf, getD_pruneMin wf]
  have := h w hw
  split
  · rw [if_pos (by omega)]; exact this
  · exact Nat.zero_le _

theorem blank_not_mem {words : List Str} (hw : ∀ t ∈ words, ' ' ∉ t) (p : Params) :
    (∀ k ∈ leftKeys p words, ' ' ∉ k) ∧ (∀ k ∈ rightKeys p words, ' ' ∉ k) := by
  constructor
  · intro k hk
    simp only [leftKeys, List.mem_flatMap] at hk
    obtain ⟨t, ht, hk⟩ := hk
    split at hk
    · cases hk
    · exact fun hb => hw t ht ((mem_lefts.1 hk).2.2.subset hb)
  · intro k hk
    simp only [rightKeys, List.mem_flatMap] at hk
    obtain ⟨t, ht, hk⟩ := hk
    split at hk
    · cases hk
    · exact fun hb => hw t ht ((mem_rights.1 hk).2.2.1.subset hb)

theorem mem_circular {words : List Str} {t : Str × Str × Str} (h : t ∈ circular words) : t.1 ∈ words ∧ t.2.1 ∈ words ∧ t.2.2 ∈ words := by
  obtain ⟨a, b, c⟩ := t
  unfold circular at h
  have h1 := List.of_mem_zip h
  have h2 := List.of_mem_zip h1.2
  refine ⟨?_, h2.1, ?_⟩
  · rcases List.mem_append.1 h1.1 with h | h
    · exact List.mem_of_getLast? (by simpa using h)
    · exact List.dropLast_subset _ h
  · rcases List.mem_append.1 h2.2 with h | h
    · exact List.mem_of_mem_drop h
    · exact List.mem_of_head? (by simpa using h)

theorem mem_properLefts {m : Int} {word w : Str} (h : w ∈ properLefts m word) : w <+: word := by
  simp only [properLefts, List.mem_map] at h
  obtain ⟨i, _, rfl⟩ := h
  exact List.take_prefix _ _

theorem shape_aLeft {words : List Str} (hw : ∀ t ∈ words, ' ' ∉ t ∧ t ≠ []) (p : Params) :
    ∀ k ∈ aLeftKeys p words, ∃ w c, k = w ++ [' ', c] ∧ ' ' ∉ w ∧ c ≠ ' ' := by
  intro k hk
  simp only [aLeftKeys, List.mem_flatMap] at hk
  obtain ⟨⟨l, m, r⟩, ht, hk⟩ := hk
  obtain ⟨_, h2, h3⟩ := mem_circular ht
  obtain ⟨b3, n3⟩ := hw r h3
  obtain ⟨b2, _⟩ := hw m h2
  cases r with
  | nil => exact absurd rfl n3
  | cons c cs =>
    simp only [List.take_succ_cons, List.take_zero, List.mem_cons, List.mem_map] at hk
    have hc : c ≠ ' ' := fun h => b3 (by simp [h])
    rcases hk with rfl | ⟨s, hs, rfl⟩
    · exact ⟨m, c, rfl, b2, hc⟩
    · exact ⟨s, c, rfl, fun hb => b2 ((mem_rights.1 hs).2.2.1.subset hb), hc⟩

theorem shape_aRight {words : List Str} (hw : ∀ t ∈ words, ' ' ∉ t ∧ t ≠ []) (p : Params) :
    ∀ k ∈ aRightKeys p words, ∃ w c, k = c :: ' ' :: w ∧ ' ' ∉ w ∧ c ≠ ' ' := by
  intro k hk
  simp only [aRightKeys, List.mem_flatMap] at hk
  obtain ⟨⟨l, m, r⟩, ht, hk⟩ := hk
  obtain ⟨h1, h2, _⟩ := mem_circular ht
  obtain ⟨b1, n1⟩ := hw l h1
  obtain ⟨b2, _⟩ := hw m h2
  have : ∃ c, l.drop (l.length - 1) = [c] ∧ c ≠ ' ' := by
    have hl : (l.drop (l.length - 1)).length = 1 := by
      have := List.length_pos_iff.2 n1; simp; omega
    obtain ⟨c, hc⟩ := List.length_eq_one_iff.1 hl
    refine ⟨c, hc, fun h => b1 ?_⟩
    have : c ∈ l.drop (l.length - 1) := by rw [hc]; simp
    rw [← h]; exact List.mem_of_mem_drop this
  obtain ⟨c, hc, hcb⟩ := this
  simp only [hc, List.mem_cons, List.mem_map] at hk
  rcases hk with rfl | ⟨s, hs, rfl⟩
  · exact ⟨m, c, rfl, b2, hcb⟩
  · exact ⟨s, c, rfl, fun hb => b2 ((mem_properLefts hs).subset hb), hcb⟩

theorem splitWs_words (s : Str) : ∀ t ∈ splitWs s, ' ' ∉ t ∧ t ≠ [] := by
  intro t ht
  refine ⟨?_, splitGo_nonempty s [] t ht⟩
  intro h
  have := splitGo_nospace s [] (by simp) t ht _ h
  simp at this

theorem Good.prune {s : State} (h : Good s) (m : Int) : Good { s with L := pruneMin m s.L, R := pruneMin m s.R } where
  wL := wf_pruneMin h.wL m
  wR := wf_pruneMin h.wR m
  waL := h.waL
  waR := h.waR
  bL := fun k hk => h.bL k ((List.filter_sublist.map _).subset hk)
  bR := fun k hk => h.bR k ((List.filter_sublist.map _).subset hk)
  shL := h.shL
  shR := h.shR
  mL := h.mL.prune h.wL m
  mR := h.mR.prune h.wR m

theorem Good.pruneA {s : State} (h : Good s) : Good { s with aL := pruneOne s.aL, aR := pruneOne s.aR } where
  wL := h.wL
  wR := h.wR
  waL := wf_pruneOne h.waL
  waR := wf_pruneOne h.waR
  bL := h.bL
  bR := h.bR
  shL := fun k hk => h.shL k ((List.filter_sublist.map _).subset hk)
  shR := fun k hk => h.shR k ((List.filter_sublist.map _).subset hk)
  mL := h.mL
  mR := h.mR

theorem Good.lr {s : State} (h : Good s) (p : Params) (sent : Str) :
    Good { s with L := incAll s.L (leftKeys p (splitWs sent)), R := incAll s.R (rightKeys p (splitWs sent)) } where
  wL := wf_incAll h.wL _
  wR := wf_incAll h.wR _
  waL := h.waL
  waR := h.waR
  bL := fun k hk => ((mem_keys_incAll _ _ _).1 hk).elim (h.bL k) ((blank_not_mem (fun t ht => (splitWs_words sent t ht).1) p).1 k)
  bR := fun k hk => ((mem_keys_incAll _ _ _).1 hk).elim (h.bR k) ((blank_not_mem (fun t ht => (splitWs_words sent t ht).1) p).2 k)
  shL := h.shL
  shR := h.shR
  mL := h.mL.incAll p _
  mR := h.mR.incAll p _

theorem Good.acc {s : State} (h : Good s) (p : Params) (sent : Str) :
    Good { s with aL := incAll s.aL (aLeftKeys p (splitWs sent)), aR := incAll s.aR (aRightKeys p (splitWs sent)) } where
  wL := h.wL
  wR := h.wR
  waL := wf_incAll h.waL _
  waR := wf_incAll h.waR _
  bL := h.bL
  bR := h.bR
  shL := fun k hk => ((mem_keys_incAll _ _ _).1 hk).elim (h.shL k) (shape_aLeft (splitWs_words sent) p k)
  shR := fun k hk => ((mem_keys_incAll _ _ _).1 hk).elim (h.shR k) (shape_aRight (splitWs_words sent) p k)
  mL := h.mL
  mR := h.mR

theorem Good.trainSent {s : State} (h : Good s) (p : Params) (k : Int) (si : Str × Nat) : Good (trainSent p k s si) := by
  unfold WX.trainSent; dsimp only
  split
  · exact h.lr p si.1
  · split
    · exact ((h.lr p si.1).acc p si.1).prune _
    · exact (h.lr p si.1).acc p si.1

theorem Good.foldl {s : State} (h : Good s) (p : Params) (k : Int) (sis : List (Str × Nat)) : Good (sis.foldl (WX.trainSent p k) s) := by
  induction sis generalizing s with
  | nil => exact h
  | cons x xs ih => exact ih (h.trainSent p k x)

theorem Good.train {s : State} (h : Good s) {p : Params} {sents : List Str} {k : Int} {c : Bool} {s' : State}
    (e : train p s sents k c = .ok s') : Good s' := by
  unfold WX.train at e
  split at e
  · cases e
  · have e' := Except.ok.inj e
    rw [← e']
    have h0 : Good (if c = true then s else {}) := by split; exact h; exact good_init
    exact ((h0.foldl p k sents.zipIdx).prune p.minFrequency).pruneA

end WX
