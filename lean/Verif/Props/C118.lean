import Verif.Props.C30_C32

/-! C118: the statistics of a word depend only on the sentences in which it begins or ends a token. -/

namespace Props

open Py WX

/-- a token of the sentence begins with `w` -/
abbrev Begins (w : Str) (sent : Str) : Prop := ∃ t ∈ splitWs sent, w <+: t

/-- a token of the sentence ends with `w` -/
abbrev Ends (w : Str) (sent : Str) : Prop := ∃ t ∈ splitWs sent, w <:+ t

/-- the part of a table whose keys satisfy `P` -/
def part (P : Str → Bool) (d : Dict Str Nat) : Dict Str Nat := d.filter (fun e => P e.1)

theorem part_set (P : Str → Bool) (k : Str) (v : Nat) : ∀ d : Dict Str Nat, part P (Dict.set d k v) = if P k then Dict.set (part P d) k v else part P d
  | [] => by
    show List.filter _ [(k, v)] = _
    cases h : P k <;> simp [h, part, Dict.set]
  | (k', v') :: d => by
    have ih := part_set P k v d
    unfold part at ih ⊢
    by_cases hk : k' = k
    · subst hk
      cases h : P k' <;> simp [Dict.set, h]
    · simp only [Dict.set, if_neg hk, List.filter_cons]
      cases h' : P k' <;> cases h : P k <;> simp_all [Dict.set]

theorem get?_part {P : Str → Bool} {k : Str} (hk : P k = true) : ∀ d : Dict Str Nat, Dict.get? (part P d) k = Dict.get? d k
  | [] => rfl
  | (k', v') :: d => by
    have ih := get?_part hk d
    unfold part at ih ⊢
    rw [List.filter_cons]
    by_cases h : k' = k
    · subst h; simp [hk, Dict.get?]
    · cases h' : P k' <;> simp [Dict.get?, h, ih]

theorem part_add (P : Str → Bool) (k : Str) (d : Dict Str Nat) : part P (Dict.add d k 1) = if P k then Dict.add (part P d) k 1 else part P d := by
  unfold Dict.add
  rw [part_set]
  by_cases h : P k = true
  · rw [if_pos h, if_pos h, Dict.getD, Dict.getD, get?_part h]
  · rw [if_neg h, if_neg h]

theorem part_incAll (P : Str → Bool) (ks : List Str) : ∀ d : Dict Str Nat, part P (incAll d ks) = incAll (part P d) (ks.filter P) := by
  induction ks with
  | nil => intro d; rfl
  | cons k ks ih =>
    intro d
    show part P (incAll (Dict.add d k 1) ks) = _
    rw [ih, part_add, List.filter_cons]
    split <;> rfl

/-- the keys of interest come from the sentences of interest -/
theorem flatMap_relevant {f : Str → List Str} {P : Str → Bool} {M : Str → Prop} [DecidablePred M] (h : ∀ t, ¬ M t → ∀ k ∈ f t, P k = false) (xs : List Str) :
    (xs.flatMap f).filter P = ((xs.filter (fun t => decide (M t))).flatMap f).filter P := by
  induction xs with
  | nil => rfl
  | cons x xs ih =>
    rw [List.flatMap_cons, List.filter_append, ih, List.filter_cons]
    by_cases hx : M x
    · rw [if_pos (by simpa using hx), List.flatMap_cons, List.filter_append]
    · rw [if_neg (by simpa using hx)]
      rw [List.filter_eq_nil_iff.2 (by intro k hk; rw [h x hx k hk]; simp), List.nil_append]

theorem filter_weaken {M N : Str → Prop} [DecidablePred M] [DecidablePred N] (h : ∀ t, M t → N t) {xs ys : List Str}
    (he : xs.filter (fun t => decide (N t)) = ys.filter (fun t => decide (N t))) : xs.filter (fun t => decide (M t)) = ys.filter (fun t => decide (M t)) := by
  have : ∀ zs : List Str, zs.filter (fun t => decide (M t)) = (zs.filter (fun t => decide (N t))).filter (fun t => decide (M t)) := by
    intro zs
    rw [List.filter_filter]
    apply List.filter_congr
    intro t _
    by_cases hm : M t
    · simp [hm, h t hm]
    · simp [hm]
  rw [this xs, this ys, he]

/-- the keys of `_aL` and `_aR` that a sentence increments -/
def aKeysL (p : Params) (sent : Str) : List Str := if (splitWs sent).length ≤ 1 then [] else aLeftKeys p (splitWs sent)
def aKeysR (p : Params) (sent : Str) : List Str := if (splitWs sent).length ≤ 1 then [] else aRightKeys p (splitWs sent)

theorem fold_tables (p : Params) {k : Int} (hk : k ≤ 0) (sents : List (Str × Nat)) (s : State) :
    sents.foldl (trainSent p k) s =
      ⟨incAll s.L ((sents.map (·.1)).flatMap (fun t => leftKeys p (splitWs t))), incAll s.R ((sents.map (·.1)).flatMap (fun t => rightKeys p (splitWs t))),
       incAll s.aL ((sents.map (·.1)).flatMap (aKeysL p)), incAll s.aR ((sents.map (·.1)).flatMap (aKeysR p))⟩ := by
  induction sents generalizing s with
  | nil => rfl
  | cons x xs ih =>
    rw [List.foldl_cons, ih]
    simp only [List.map_cons, List.flatMap_cons, incAll_append]
    have : trainSent p k s x = ⟨incAll s.L (leftKeys p (splitWs x.1)), incAll s.R (rightKeys p (splitWs x.1)), incAll s.aL (aKeysL p x.1), incAll s.aR (aKeysR p x.1)⟩ := by
      unfold trainSent aKeysL aKeysR; dsimp only
      by_cases h : (splitWs x.1).length ≤ 1
      · rw [if_pos h, if_pos h, if_pos h]; rfl
      · rw [if_neg h, if_neg h, if_neg h, if_neg (by omega)]
    rw [this]

theorem train_tables (p : Params) (s : State) (sents : List Str) (k : Int) (c : Bool) (hne : sents ≠ []) (hk : k ≤ 0) :
    train p s sents k c = .ok ⟨pruneMin p.minFrequency (incAll (if c then s else {}).L (sents.flatMap (fun t => leftKeys p (splitWs t)))),
      pruneMin p.minFrequency (incAll (if c then s else {}).R (sents.flatMap (fun t => rightKeys p (splitWs t)))),
      pruneOne (incAll (if c then s else {}).aL (sents.flatMap (aKeysL p))), pruneOne (incAll (if c then s else {}).aR (sents.flatMap (aKeysR p)))⟩ := by
  rw [wx_train_ok p s sents k c hne, fold_tables p hk]
  simp only [List.zipIdx_map_fst]

/-- filtering a pruned table by a property of its keys -/
theorem filter_prune {Q : Str × Nat → Bool} {P : Str → Bool} (hQ : ∀ e, Q e = P e.1) (R : Str × Nat → Bool) {d d' : Dict Str Nat} (h : part P d = part P d') :
    (d.filter R).filter Q = (d'.filter R).filter Q := by
  have : ∀ x : Dict Str Nat, (x.filter R).filter Q = (part P x).filter R := by
    intro x
    unfold part
    rw [List.filter_filter, List.filter_filter]
    apply List.filter_congr
    intro e _
    rw [hQ, Bool.and_comm]
  rw [this, this, h]

theorem tables_agree (P : Str → Bool) (f : Str → List Str) {M : Str → Prop} [DecidablePred M] (h : ∀ t, ¬ M t → ∀ k ∈ f t, P k = false) (d : Dict Str Nat)
    {xs ys : List Str} (he : xs.filter (fun t => decide (M t)) = ys.filter (fun t => decide (M t))) :
    part P (incAll d (xs.flatMap f)) = part P (incAll d (ys.flatMap f)) := by
  rw [part_incAll, part_incAll, flatMap_relevant h xs, flatMap_relevant h ys, he]

theorem left_relevant (p : Params) (w : Str) (P : Str → Bool) (hP : ∀ k, P k = true → w <+: k) (t : Str) (ht : ¬ Begins w t) :
    ∀ k ∈ leftKeys p (splitWs t), P k = false := by
  intro k hk
  rw [← Bool.not_eq_true]
  intro hp
  simp only [leftKeys, List.mem_flatMap] at hk
  obtain ⟨word, hw, hk⟩ := hk
  split at hk
  · simp at hk
  · exact ht ⟨word, hw, (hP k hp).trans (mem_lefts.1 hk).2.2⟩

theorem right_relevant (p : Params) (w : Str) (P : Str → Bool) (hP : ∀ k, P k = true → w <:+ k) (t : Str) (ht : ¬ Ends w t) :
    ∀ k ∈ rightKeys p (splitWs t), P k = false := by
  intro k hk
  rw [← Bool.not_eq_true]
  intro hp
  simp only [rightKeys, List.mem_flatMap] at hk
  obtain ⟨word, hw, hk⟩ := hk
  split at hk
  · simp at hk
  · exact ht ⟨word, hw, (hP k hp).trans (mem_rights.1 hk).2.2.1⟩

theorem circular_mem {words : List Str} {t : Str × Str × Str} (h : t ∈ circular words) : t.1 ∈ words ∧ t.2.1 ∈ words ∧ t.2.2 ∈ words := by
  obtain ⟨a, b, c⟩ := t
  unfold circular at h
  have h1 := List.of_mem_zip h
  have h2 := List.of_mem_zip h1.2
  refine ⟨?_, h2.1, ?_⟩
  · rcases List.mem_append.1 h1.1 with h | h
    · exact List.mem_of_getLast? (by simpa using h)
    · exact List.dropLast_subset _ h
  · rcases List.mem_append.1 h2.2 with h | h
    · exact List.drop_subset _ _ h
    · exact List.mem_of_head? (by simpa using h)

theorem take_one_length {t : Str} (h : t ≠ []) : (t.take 1).length = 1 := by
  cases t with
  | nil => exact absurd rfl h
  | cons a t => rfl

theorem aLeft_relevant (p : Params) (w : Str) (t : Str) (ht : ¬ Ends w t) :
    ∀ k ∈ aKeysL p t, decide ((k.length : Int) - 2 = w.length ∧ k.take (k.length - 2) = w) = false := by
  intro k hk
  rw [decide_eq_false_iff_not]
  rintro ⟨-, hp⟩
  unfold aKeysL at hk
  split at hk
  · simp at hk
  · simp only [aLeftKeys, List.mem_flatMap] at hk
    obtain ⟨tr, htr, hk⟩ := hk
    have hm := circular_mem htr
    have hl := take_one_length ((WX.splitWs_words t _ hm.2.2).2)
    have key : ∀ x : Str, (x ++ ' ' :: tr.2.2.take 1).take ((x ++ ' ' :: tr.2.2.take 1).length - 2) = x := by
      intro x
      rw [List.length_append, List.length_cons, hl, show x.length + (1 + 1) - 2 = x.length by omega, List.take_left']
      rfl
    rcases List.mem_cons.1 hk with rfl | hk
    · rw [key] at hp
      exact ht ⟨_, hm.2.1, by rw [hp]⟩
    · obtain ⟨x, hx, rfl⟩ := List.mem_map.1 hk
      rw [key] at hp
      subst hp
      exact ht ⟨_, hm.2.1, (mem_rights.1 hx).2.2.1⟩

theorem aRight_relevant (p : Params) (w : Str) (t : Str) (ht : ¬ Begins w t) :
    ∀ k ∈ aKeysR p t, decide ((k.length : Int) - 2 = w.length ∧ k.drop 2 = w) = false := by
  intro k hk
  rw [decide_eq_false_iff_not]
  rintro ⟨-, hp⟩
  unfold aKeysR at hk
  split at hk
  · simp at hk
  · simp only [aRightKeys, List.mem_flatMap] at hk
    obtain ⟨tr, htr, hk⟩ := hk
    have hm := circular_mem htr
    have hl : (tr.1.drop (tr.1.length - 1)).length = 1 := by
      have := List.length_pos_iff.2 (WX.splitWs_words t _ hm.1).2
      rw [List.length_drop]; omega
    have key : ∀ x : Str, (tr.1.drop (tr.1.length - 1) ++ ' ' :: x).drop 2 = x := by
      intro x
      obtain ⟨a, ha⟩ := List.length_eq_one_iff.1 hl
      rw [ha]; rfl
    rcases List.mem_cons.1 hk with rfl | hk
    · rw [key] at hp
      exact ht ⟨_, hm.2.1, by rw [hp]⟩
    · obtain ⟨x, hx, rfl⟩ := List.mem_map.1 hk
      rw [key] at hp
      subst hp
      exact ht ⟨_, hm.2.1, mem_properLefts hx⟩

theorem filter_eq_of {a b : Dict Str Nat} {Q : Str × Nat → Bool} {w : Str} (hQ : ∀ e : Str × Nat, Q e = decide (e.1 = w)) (h : a.filter Q = b.filter Q) :
    Dict.get? a w = Dict.get? b w := by
  have hp : ∀ d : Dict Str Nat, d.filter Q = part (fun k => decide (k = w)) d := by
    intro d
    unfold part
    exact List.filter_congr (fun e _ => hQ e)
  rw [hp, hp] at h
  rw [← get?_part (P := fun k => decide (k = w)) (by simp) a, ← get?_part (P := fun k => decide (k = w)) (by simp) b, h]

theorem freq_left (p : Params) (d : Dict Str Nat) {xs ys : List Str} (w : Str)
    (h : xs.filter (fun t => decide (Begins w t)) = ys.filter (fun t => decide (Begins w t))) :
    Dict.get? (pruneMin p.minFrequency (incAll d (xs.flatMap (fun t => leftKeys p (splitWs t))))) w =
      Dict.get? (pruneMin p.minFrequency (incAll d (ys.flatMap (fun t => leftKeys p (splitWs t))))) w :=
  filter_eq_of (Q := fun e => decide (e.1 = w)) (fun _ => rfl)
    (filter_prune (P := fun k => decide (k = w)) (fun _ => rfl) _
      (tables_agree _ _ (left_relevant p w _ (fun k hk => by rw [of_decide_eq_true hk])) d h))

theorem freq_right (p : Params) (d : Dict Str Nat) {xs ys : List Str} (w : Str)
    (h : xs.filter (fun t => decide (Ends w t)) = ys.filter (fun t => decide (Ends w t))) :
    Dict.get? (pruneMin p.minFrequency (incAll d (xs.flatMap (fun t => rightKeys p (splitWs t))))) w =
      Dict.get? (pruneMin p.minFrequency (incAll d (ys.flatMap (fun t => rightKeys p (splitWs t))))) w :=
  filter_eq_of (Q := fun e => decide (e.1 = w)) (fun _ => rfl)
    (filter_prune (P := fun k => decide (k = w)) (fun _ => rfl) _
      (tables_agree _ _ (right_relevant p w _ (fun k hk => by rw [of_decide_eq_true hk])) d h))

/-- Two corpora with the same sentences, in the same order, among those in which some token begins or ends with `w`, give `w` the same frequencies, the same accessor
    variety and the same branching entropy, whatever the other sentences say and however many there are; this holds from a new extractor and when
    training goes on from one that already has counts. -/
theorem C118_word (p : Params) (s0 : State) (c : Bool) (k : Int) (hk : k ≤ 0) (xs ys : List Str) (hx : xs ≠ []) (hy : ys ≠ []) (w : Str)
    (h : xs.filter (fun t => decide (Begins w t ∨ Ends w t)) = ys.filter (fun t => decide (Begins w t ∨ Ends w t))) :
    ∃ a b, train p s0 xs k c = .ok a ∧ train p s0 ys k c = .ok b ∧ frequency a w = frequency b w ∧
      accessorVariety a w = accessorVariety b w ∧ branchingEntropy a w = branchingEntropy b w := by
  refine ⟨_, _, train_tables p s0 xs k c hx hk, train_tables p s0 ys k c hy hk, ?_⟩
  have hB := filter_weaken (M := Begins w) (N := fun t => Begins w t ∨ Ends w t) (fun t => .inl) h
  have hE := filter_weaken (M := Ends w) (N := fun t => Begins w t ∨ Ends w t) (fun t => .inr) h
  generalize hs : (if c = true then s0 else {}) = s
  have hl : ∀ zs zs' : List Str, zs.filter (fun t => decide (Begins w t)) = zs'.filter (fun t => decide (Begins w t)) →
      zs.filter (fun t => decide (Ends w t)) = zs'.filter (fun t => decide (Ends w t)) → ∀ l r al ar l' r' al' ar',
      leftExt ⟨l, pruneMin p.minFrequency (incAll s.R (zs.flatMap (fun t => rightKeys p (splitWs t)))), al, pruneOne (incAll s.aR (zs.flatMap (aKeysR p)))⟩ w =
        leftExt ⟨l', pruneMin p.minFrequency (incAll s.R (zs'.flatMap (fun t => rightKeys p (splitWs t)))), al', pruneOne (incAll s.aR (zs'.flatMap (aKeysR p)))⟩ w ∧
      rightExt ⟨pruneMin p.minFrequency (incAll s.L (zs.flatMap (fun t => leftKeys p (splitWs t)))), r, pruneOne (incAll s.aL (zs.flatMap (aKeysL p))), ar⟩ w =
        rightExt ⟨pruneMin p.minFrequency (incAll s.L (zs'.flatMap (fun t => leftKeys p (splitWs t)))), r', pruneOne (incAll s.aL (zs'.flatMap (aKeysL p))), ar'⟩ w := by
    intro zs zs' h1 h2 l r al ar l' r' al' ar'
    have e1 := filter_prune (Q := fun kv : Str × Nat => decide ((kv.1.length : Int) - 1 = w.length ∧ kv.1.drop 1 = w)) (fun _ => rfl)
      (fun kv => decide ((kv.2 : Int) ≥ p.minFrequency))
      (tables_agree _ _ (right_relevant p w (fun k => decide ((k.length : Int) - 1 = w.length ∧ k.drop 1 = w))
        (fun k hk => by rw [← (of_decide_eq_true hk).2]; exact List.drop_suffix _ _)) s.R h2)
    have e2 := filter_prune (Q := fun kv : Str × Nat => decide ((kv.1.length : Int) - 2 = w.length ∧ kv.1.drop 2 = w)) (fun _ => rfl)
      (fun kv => decide (kv.2 > 1)) (tables_agree _ _ (aRight_relevant p w) s.aR h1)
    have e3 := filter_prune (Q := fun kv : Str × Nat => decide ((kv.1.length : Int) - 1 = w.length ∧ kv.1.dropLast = w)) (fun _ => rfl)
      (fun kv => decide ((kv.2 : Int) ≥ p.minFrequency))
      (tables_agree _ _ (left_relevant p w (fun k => decide ((k.length : Int) - 1 = w.length ∧ k.dropLast = w))
        (fun k hk => by rw [← (of_decide_eq_true hk).2]; exact List.dropLast_prefix _)) s.L h1)
    have e4 := filter_prune (Q := fun kv : Str × Nat => decide ((kv.1.length : Int) - 2 = w.length ∧ kv.1.take (kv.1.length - 2) = w)) (fun _ => rfl)
      (fun kv => decide (kv.2 > 1)) (tables_agree _ _ (aLeft_relevant p w) s.aL h2)
    unfold leftExt rightExt pruneMin pruneOne
    dsimp only
    rw [e1, e2, e3, e4]
    exact ⟨rfl, rfl⟩
  refine ⟨?_, ?_, ?_⟩
  · unfold frequency Dict.getD
    dsimp only
    rw [freq_left p s.L w hB, freq_right p s.R w hE]
  · unfold accessorVariety
    rw [(hl xs ys hB hE _ [] _ [] _ [] _ []).1, (hl xs ys hB hE [] _ [] _ [] _ [] _).2]
  · unfold branchingEntropy
    rw [(hl xs ys hB hE _ [] _ [] _ [] _ []).1, (hl xs ys hB hE [] _ [] _ [] _ [] _).2]

/-- The cohesion of `w` divides by the frequencies of its first and last character, so it depends on the sentences in which some token begins with that first character or
    ends with that last one, and on no other. -/
theorem C118_cohesion (p : Params) (s0 : State) (c : Bool) (k : Int) (hk : k ≤ 0) (xs ys : List Str) (hx : xs ≠ []) (hy : ys ≠ []) (w : Str)
    (h : xs.filter (fun t => decide (Begins (w.take 1) t ∨ Ends (w.drop (w.length - 1)) t)) =
      ys.filter (fun t => decide (Begins (w.take 1) t ∨ Ends (w.drop (w.length - 1)) t))) :
    ∃ a b, train p s0 xs k c = .ok a ∧ train p s0 ys k c = .ok b ∧ cohesion a w = cohesion b w := by
  refine ⟨_, _, train_tables p s0 xs k c hx hk, train_tables p s0 ys k c hy hk, ?_⟩
  have hB1 := filter_weaken (M := Begins (w.take 1)) (N := fun t => Begins (w.take 1) t ∨ Ends (w.drop (w.length - 1)) t) (fun t => .inl) h
  have hE1 := filter_weaken (M := Ends (w.drop (w.length - 1))) (N := fun t => Begins (w.take 1) t ∨ Ends (w.drop (w.length - 1)) t) (fun t => .inr) h
  have hB := filter_weaken (M := Begins w) (N := Begins (w.take 1)) (fun t ht => by
    obtain ⟨u, hu, hp⟩ := ht; exact ⟨u, hu, (List.take_prefix _ _).trans hp⟩) hB1
  have hE := filter_weaken (M := Ends w) (N := Ends (w.drop (w.length - 1))) (fun t ht => by
    obtain ⟨u, hu, hp⟩ := ht; exact ⟨u, hu, (List.drop_suffix _ _).trans hp⟩) hE1
  unfold cohesion frequency cohesionSide Dict.getD
  dsimp only
  rw [freq_left p _ w hB, freq_right p _ w hE, freq_left p _ _ hB1, freq_right p _ _ hE1]

/-- With intermediate pruning the claim fails: a sentence without `w` shifts the sentence at whose index the tables are pruned. -/
theorem C118_pruning : ∃ (p : Params) (xs ys : List Str) (w : Str) (a b : State), xs ≠ [] ∧ ys ≠ [] ∧
    xs.filter (fun t => decide (Begins w t ∨ Ends w t)) = ys.filter (fun t => decide (Begins w t ∨ Ends w t)) ∧
    train p {} xs 2 true = .ok a ∧ train p {} ys 2 true = .ok b ∧ frequency a w ≠ frequency b w :=
  ⟨⟨10, 6, 2⟩, ["ab cd".toList, "ab ef".toList], ["xy zz".toList, "ab cd".toList, "ab ef".toList], "ab".toList, _, _, by decide +kernel, by decide +kernel, by decide +kernel, rfl, rfl,
    by decide +kernel⟩

example : ∃ a b, train ⟨10, 6, 1⟩ {} ["ab cd".toList, "xy zz".toList, "ab ef".toList] 0 true = .ok a ∧
    train ⟨10, 6, 1⟩ {} ["ab cd".toList, "ab ef".toList, "gh ij kl".toList] 0 true = .ok b ∧ frequency a "ab".toList = frequency b "ab".toList := by
  obtain ⟨a, b, h1, h2, h3, -⟩ := C118_word ⟨10, 6, 1⟩ {} true 0 (by decide) ["ab cd".toList, "xy zz".toList, "ab ef".toList] ["ab cd".toList, "ab ef".toList, "gh ij kl".toList]
    (by decide) (by decide) "ab".toList (by decide +kernel)
  exact ⟨a, b, h1, h2, h3⟩

end Props
