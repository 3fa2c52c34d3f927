import Verif.Props.C30_C32
import Mathlib.Data.List.Rotate
/-! C64: accessor variety and branching entropy in terms of the corpus. -/
namespace Props
open Py WX

/-- the neighbouring word pairs of the sentences; in a sentence of two or more words the last word is also followed by
    the first -/
def boundaries (sents : List Str) : List (Str × Str) :=
  sents.flatMap (fun s => if (splitWs s).length ≤ 1 then [] else (splitWs s).zip ((splitWs s).rotate 1))

/-- how often `w` ends just before a boundary that is followed by `c`: as a whole word, or as a proper suffix of at most
    `maxRight` characters -/
def afterCount (maxRight : Int) (sents : List Str) (w : Str) (c : Char) : Nat :=
  (boundaries sents).countP (fun b =>
    decide ((b.1 = w ∨ (w ≠ [] ∧ (w.length : Int) ≤ maxRight ∧ w <:+ b.1 ∧ w.length < b.1.length)) ∧ b.2.head? = some c))

/-- how often `w` begins just after a boundary that follows `c`: as a whole word, or as a proper prefix of at most
    `maxLeft` characters -/
def beforeCount (maxLeft : Int) (sents : List Str) (w : Str) (c : Char) : Nat :=
  (boundaries sents).countP (fun b =>
    decide ((b.2 = w ∨ (w ≠ [] ∧ (w.length : Int) ≤ maxLeft ∧ w <+: b.2 ∧ w.length < b.2.length)) ∧ b.1.getLast? = some c))

/-- the Shannon entropy (natural logarithm) of a list of counts -/
noncomputable def shannon (ns : List Nat) : ℝ :=
  -(ns.map (fun n : Nat => (n : ℝ) / ((ns.sum : ℕ) : ℝ) * Real.log ((n : ℝ) / ((ns.sum : ℕ) : ℝ)))).sum

private theorem indicator {α : Type} (ts : List α) (f : α → List Str) (P : α → Bool) (w : Str)
    (hn : ∀ t ∈ ts, (f t).Nodup) (hp : ∀ t ∈ ts, w ∈ f t ↔ P t = true) : (ts.flatMap f).count w = ts.countP P := by
  induction ts with
  | nil => rfl
  | cons t ts ih =>
    rw [List.flatMap_cons, List.count_append, ih (fun t h => hn t (by simp [h])) (fun t h => hp t (by simp [h])), List.countP_cons]
    have h1 := hn t (by simp)
    have h2 := hp t (by simp)
    by_cases h : w ∈ f t
    · rw [List.count_eq_one_of_mem h1 h, if_pos (h2.1 h)]; omega
    · rw [List.count_eq_zero_of_not_mem h, if_neg (fun h' => h (h2.2 h'))]; omega

theorem wx_fold_a (p : Params) (k : Int) (sents : List (Str × Nat)) (s : State) :
    (sents.foldl (trainSent p k) s).aL = incAll s.aL (sents.flatMap (fun si => if (splitWs si.1).length ≤ 1 then [] else aLeftKeys p (splitWs si.1))) ∧
    (sents.foldl (trainSent p k) s).aR = incAll s.aR (sents.flatMap (fun si => if (splitWs si.1).length ≤ 1 then [] else aRightKeys p (splitWs si.1))) := by
  induction sents generalizing s with
  | nil => exact ⟨rfl, rfl⟩
  | cons x xs ih =>
    obtain ⟨h1, h2⟩ := ih (trainSent p k s x)
    rw [List.foldl_cons, h1, h2, List.flatMap_cons, List.flatMap_cons, incAll_append, incAll_append]
    have : (trainSent p k s x).aL = incAll s.aL (if (splitWs x.1).length ≤ 1 then [] else aLeftKeys p (splitWs x.1)) ∧
        (trainSent p k s x).aR = incAll s.aR (if (splitWs x.1).length ≤ 1 then [] else aRightKeys p (splitWs x.1)) := by
      unfold trainSent
      by_cases h : (splitWs x.1).length ≤ 1
      · simp only [if_pos h]; exact ⟨rfl, rfl⟩
      · simp only [if_neg h]; split <;> exact ⟨rfl, rfl⟩
    rw [this.1, this.2]; exact ⟨rfl, rfl⟩

private theorem circ_next (ws : List Str) (h : ¬ ws.length ≤ 1) : (circular ws).map (fun t => (t.2.1, t.2.2)) = ws.zip (ws.rotate 1) := by
  cases ws with
  | nil => simp at h
  | cons a ws =>
    unfold circular
    show List.map Prod.snd _ = _
    rw [List.map_snd_zip]
    · rw [List.rotate_cons_succ, List.rotate_zero]; rfl
    · simp [List.getLast?_cons]

private theorem circ_prev (ws : List Str) (h : ¬ ws.length ≤ 1) : ((circular ws).map (fun t => (t.1, t.2.1))).Perm (ws.zip (ws.rotate 1)) := by
  rcases List.eq_nil_or_concat ws with rfl | ⟨ws, a, rfl⟩
  · simp at h
  · have e : (circular (ws.concat a)).map (fun t => (t.1, t.2.1)) = (a :: ws).zip ((a :: ws).rotate 1) := by
      unfold circular
      rw [List.concat_eq_append, List.getLast?_append]
      simp only [List.getLast?_singleton, Option.some_or, Option.toList_some, List.dropLast_concat, List.singleton_append]
      have : ∀ (l m n : List Str), m.length ≤ n.length → (l.zip (m.zip n)).map (fun t => (t.1, t.2.1)) = l.zip m := by
        intro l
        induction l with
        | nil => intros; rfl
        | cons x l ih =>
          intro m n hmn
          cases m with
          | nil => rfl
          | cons y m => cases n with
            | nil => simp at hmn
            | cons z n => simp only [List.zip_cons_cons, List.map_cons]; rw [ih m n (by simpa using hmn)]
      rw [this _ _ _ (by cases ws <;> simp), List.rotate_cons_succ, List.rotate_zero]
    rw [e]
    have e2 : (ws.concat a) = (a :: ws).rotate 1 := by rw [List.rotate_cons_succ, List.rotate_zero, List.concat_eq_append]
    rw [e2]
    have := List.zipWith_rotate_distrib Prod.mk (a :: ws) ((a :: ws).rotate 1) 1 (by simp)
    exact (this ▸ List.rotate_perm _ _ : (List.zipWith Prod.mk _ _).Perm _).symm

private theorem mem_properLefts_iff {m : Int} {word w : Str} :
    w ∈ properLefts m word ↔ w ≠ [] ∧ (w.length : Int) ≤ m ∧ w <+: word ∧ w.length < word.length := by
  simp only [properLefts, List.mem_map, List.mem_range]
  constructor
  · rintro ⟨i, hi, rfl⟩
    have hl : (word.take (i + 1)).length = i + 1 := by rw [List.length_take]; omega
    refine ⟨?_, by omega, List.take_prefix _ _, by omega⟩
    intro h; rw [h] at hl; simp at hl
  · rintro ⟨h1, h2, h3, h4⟩
    have := List.length_pos_iff.2 h1
    refine ⟨w.length - 1, by omega, ?_⟩
    rw [List.prefix_iff_eq_take] at h3
    rw [show w.length - 1 + 1 = w.length by omega]; exact h3.symm

private theorem nodup_properLefts (m : Int) (word : Str) : (properLefts m word).Nodup := by
  unfold properLefts
  refine List.Nodup.map_on ?_ List.nodup_range
  intro i hi j hj h
  rw [List.mem_range] at hi hj
  have := congrArg List.length h
  rw [List.length_take, List.length_take] at this
  omega

theorem wx_count_after (p : Params) (sents : List (Str × Nat)) (w : Str) (c : Char) :
    (sents.flatMap (fun si => if (splitWs si.1).length ≤ 1 then [] else aLeftKeys p (splitWs si.1))).count (w ++ [' ', c]) =
      afterCount p.maxRight (sents.map (·.1)) w c := by
  unfold afterCount boundaries
  induction sents with
  | nil => rfl
  | cons x xs ih =>
    rw [List.flatMap_cons, List.map_cons, List.flatMap_cons, List.count_append, List.countP_append, ih]
    congr 1
    by_cases h : (splitWs x.1).length ≤ 1
    · simp only [if_pos h]; rfl
    · simp only [if_neg h]
      have hw := WX.splitWs_words x.1
      rw [← circ_next _ h, List.countP_map]
      unfold aLeftKeys
      apply indicator
      · intro t ht
        have hinj : Function.Injective (fun s : Str => s ++ ' ' :: t.2.2.take 1) := fun a b hab => List.append_cancel_right hab
        rw [List.nodup_cons]
        refine ⟨?_, (nodup_rights _ _).map hinj⟩
        rw [List.mem_map_of_injective hinj, mem_rights]
        rintro ⟨_, _, _, h⟩; omega
      · intro t ht
        have hm := mem_circular ht
        have hne := (hw _ hm.2.2).2
        have h1 : t.2.2.take 1 = [c] ↔ t.2.2.head? = some c := by
          cases ht2 : t.2.2 with
          | nil => exact absurd ht2 hne
          | cons a l => simp
        have hkey : ∀ s : Str, w ++ [' ', c] = s ++ ' ' :: t.2.2.take 1 ↔ s = w ∧ t.2.2.head? = some c := by
          intro s
          rw [← h1]
          constructor
          · intro e
            have hl : (' ' :: t.2.2.take 1).length = 2 := by
              cases ht2 : t.2.2 with
              | nil => exact absurd ht2 hne
              | cons a l => simp
            obtain ⟨e1, e2⟩ := List.append_inj' e (by rw [hl]; rfl)
            exact ⟨e1.symm, by simpa using e2.symm⟩
          · rintro ⟨rfl, e⟩; rw [e]
        simp only [Function.comp, decide_eq_true_eq, List.mem_cons, List.mem_map, hkey]
        constructor
        · rintro (⟨h, h'⟩ | ⟨s, hs, e⟩)
          · exact ⟨Or.inl h, h'⟩
          · obtain ⟨rfl, h'⟩ := (hkey s).1 e.symm
            exact ⟨Or.inr (mem_rights.1 hs), h'⟩
        · rintro ⟨h | h, h'⟩
          · exact Or.inl ⟨h, h'⟩
          · exact Or.inr ⟨w, mem_rights.2 h, ((hkey w).2 ⟨rfl, h'⟩).symm⟩

theorem wx_count_before (p : Params) (sents : List (Str × Nat)) (w : Str) (c : Char) :
    (sents.flatMap (fun si => if (splitWs si.1).length ≤ 1 then [] else aRightKeys p (splitWs si.1))).count (c :: ' ' :: w) =
      beforeCount p.maxLeft (sents.map (·.1)) w c := by
  unfold beforeCount boundaries
  induction sents with
  | nil => rfl
  | cons x xs ih =>
    rw [List.flatMap_cons, List.map_cons, List.flatMap_cons, List.count_append, List.countP_append, ih]
    congr 1
    by_cases h : (splitWs x.1).length ≤ 1
    · simp only [if_pos h]; rfl
    · simp only [if_neg h]
      have hw := WX.splitWs_words x.1
      rw [← (circ_prev _ h).countP_eq, List.countP_map]
      unfold aRightKeys
      apply indicator
      · intro t ht
        have hinj : Function.Injective (fun s : Str => t.1.drop (t.1.length - 1) ++ ' ' :: s) := fun a b hab => by
          have := List.append_cancel_left hab; simpa using this
        rw [List.nodup_cons]
        refine ⟨?_, (nodup_properLefts _ _).map hinj⟩
        rw [List.mem_map_of_injective hinj, mem_properLefts_iff]
        rintro ⟨_, _, _, h⟩; omega
      · intro t ht
        have hm := mem_circular ht
        have hne := (hw _ hm.1).2
        obtain ⟨d, hd⟩ : ∃ d, t.1.drop (t.1.length - 1) = [d] ∧ t.1.getLast? = some d := by
          rcases List.eq_nil_or_concat t.1 with h | ⟨l, a, h⟩
          · exact absurd h hne
          · refine ⟨a, ?_, ?_⟩ <;> rw [h] <;> simp
        have hkey : ∀ s : Str, c :: ' ' :: w = t.1.drop (t.1.length - 1) ++ ' ' :: s ↔ s = w ∧ t.1.getLast? = some c := by
          intro s
          rw [hd.1, hd.2]
          simp only [List.cons_append, List.nil_append, List.cons.injEq, true_and, Option.some.injEq]
          exact ⟨fun ⟨a, b⟩ => ⟨b.symm, a.symm⟩, fun ⟨a, b⟩ => ⟨b.symm, a.symm⟩⟩
        simp only [Function.comp, decide_eq_true_eq, List.mem_cons, List.mem_map, hkey]
        constructor
        · rintro (⟨h, h'⟩ | ⟨s, hs, e⟩)
          · exact ⟨Or.inl h, h'⟩
          · obtain ⟨rfl, h'⟩ := (hkey s).1 e.symm
            exact ⟨Or.inr (mem_properLefts_iff.1 hs), h'⟩
        · rintro ⟨h | h, h'⟩
          · exact Or.inl ⟨h, h'⟩
          · exact Or.inr ⟨w, mem_properLefts_iff.2 h, ((hkey w).2 ⟨rfl, h'⟩).symm⟩

theorem wx_ext_list (d : Dict Str Nat) (wf : d.WF) (q : Str × Nat → Bool) (key : Char → Str) (ch : Str → Char)
    (hk : ∀ kv ∈ d, q kv = true → key (ch kv.1) = kv.1) (hq : ∀ c n, q (key c, n) = true) (hc : ∀ c, ch (key c) = c)
    (f : Char → Nat) (t : Char → Prop) [DecidablePred t] (hget : ∀ c, Dict.get? d (key c) = if t c then some (f c) else none) :
    ∃ xs : List Char, xs.Nodup ∧ (∀ c, c ∈ xs ↔ t c) ∧ d.filter q = xs.map (fun c => (key c, f c)) := by
  have hmem : ∀ kv, kv ∈ d.filter q ↔ t (ch kv.1) ∧ kv = (key (ch kv.1), f (ch kv.1)) := by
    rintro ⟨k, n⟩
    rw [List.mem_filter]
    constructor
    · rintro ⟨h1, h2⟩
      have e := hk _ h1 h2
      have hg := hget (ch k)
      dsimp only at e ⊢
      rw [e, Dict.get?_of_mem wf h1] at hg
      split at hg
      · rename_i ht; exact ⟨ht, by rw [e, Option.some.inj hg]⟩
      · cases hg
    · rintro ⟨h1, h2⟩
      dsimp only at h1 h2
      have hg := hget (ch k)
      rw [if_pos h1] at hg
      rw [h2]
      exact ⟨Dict.mem_of_get? hg, hq _ _⟩
  refine ⟨(d.filter q).map (fun kv => ch kv.1), ?_, ?_, ?_⟩
  · have hnd : (d.filter q).Nodup := by
      have := wf.filter q
      unfold Dict.WF Dict.keys at this
      exact List.Nodup.of_map _ this
    refine List.Nodup.map_on ?_ hnd
    intro a ha b hb e
    rw [((hmem a).1 ha).2, ((hmem b).1 hb).2, e]
  · intro c
    rw [List.mem_map]
    constructor
    · rintro ⟨kv, hm, rfl⟩; exact ((hmem kv).1 hm).1
    · intro ht
      refine ⟨(key c, f c), (hmem _).2 ?_, hc c⟩
      dsimp only; rw [hc]; exact ⟨ht, rfl⟩
  · rw [List.map_map]
    conv_lhs => rw [← List.map_id (d.filter q)]
    apply List.map_congr_left
    intro kv hm
    exact ((hmem kv).1 hm).2

theorem wx_entropy_eq (l : List (Str × Nat)) : entropy l = shannon (l.map (·.2)) := by
  unfold entropy shannon
  cases l with
  | nil => simp
  | cons a l =>
    rw [if_neg (by simp)]
    dsimp only
    rw [List.map_map, neg_one_mul]; rfl

private theorem get?_pruneOne {ks : List Str} (w : Str) :
    Dict.get? (pruneOne (incAll [] ks)) w = if 2 ≤ ks.count w then some (ks.count w) else none := by
  unfold pruneOne
  rw [Dict.get?_filter (wf_incAll Dict.wf_nil ks)]
  have h1 := getD_incAll [] ks w
  simp only [Dict.getD, Dict.get?_nil, Option.getD_none, Nat.zero_add] at h1
  cases hg : Dict.get? (incAll [] ks) w with
  | none => rw [hg] at h1; simp only [Option.getD_none] at h1; rw [if_neg (by omega)]; rfl
  | some v =>
    rw [hg] at h1; simp only [Option.getD_some] at h1; rw [← h1]
    by_cases h : 2 ≤ v
    · rw [if_pos h]; simp [Option.filter]; omega
    · rw [if_neg h]; simp [Option.filter]; omega

/-- **C64** After training a fresh extractor (or any extractor with `cumulate=False`) without intermediate pruning, for
    every string `w`: the left accessor variety is the number of characters `c` for which `c w` is a kept suffix, plus the
    number of characters that precede `w` across at least two word boundaries; the right accessor variety likewise with
    `w c` and the characters that follow. The branching entropies are the Shannon entropies of those same counts. A
    sentence is read as a circle. -/
theorem C64_neighbours (p : Params) (s0 : State) (sents : List Str) (k : Int) (b : Bool) (hne : sents ≠ []) (hk : k ≤ 0)
    (hfresh : b = false ∨ s0 = {}) :
    ∃ s, train p s0 sents k b = .ok s ∧ ∀ w, ∃ xl yl xr yr : List Char, xl.Nodup ∧ yl.Nodup ∧ xr.Nodup ∧ yr.Nodup ∧
      (∀ c, c ∈ xl ↔ 0 < suffixCount p.maxRight (tokensOf sents) (c :: w) ∧ p.minFrequency ≤ suffixCount p.maxRight (tokensOf sents) (c :: w)) ∧
      (∀ c, c ∈ yl ↔ 2 ≤ beforeCount p.maxLeft sents w c) ∧
      (∀ c, c ∈ xr ↔ 0 < prefixCount p.maxLeft (tokensOf sents) (w ++ [c]) ∧ p.minFrequency ≤ prefixCount p.maxLeft (tokensOf sents) (w ++ [c])) ∧
      (∀ c, c ∈ yr ↔ 2 ≤ afterCount p.maxRight sents w c) ∧
      accessorVariety s w = (xl.length + yl.length, xr.length + yr.length) ∧
      branchingEntropy s w =
        (shannon (xl.map (fun c => suffixCount p.maxRight (tokensOf sents) (c :: w)) ++ yl.map (beforeCount p.maxLeft sents w)),
         shannon (xr.map (fun c => prefixCount p.maxLeft (tokensOf sents) (w ++ [c])) ++ yr.map (afterCount p.maxRight sents w))) := by
  obtain ⟨s, hs, hcnt⟩ := C30_counts p s0 sents k b hne hk hfresh
  refine ⟨s, hs, fun w => ?_⟩
  have h0 : (if b = true then s0 else {}) = ({} : State) := by
    rcases hfresh with h | h
    · simp [h]
    · subst h; split <;> rfl
  have htr : train p {} sents k true = .ok s := by
    rw [← hs]; unfold train
    split
    · rfl
    · rw [h0]; rfl
  have hg : Good s := (Trained.step sents k true .fresh htr : Trained p s).good
  have haL : s.aL = pruneOne (incAll [] (sents.zipIdx.flatMap (fun si => if (splitWs si.1).length ≤ 1 then [] else aLeftKeys p (splitWs si.1)))) ∧
      s.aR = pruneOne (incAll [] (sents.zipIdx.flatMap (fun si => if (splitWs si.1).length ≤ 1 then [] else aRightKeys p (splitWs si.1)))) := by
    obtain ⟨e1, e2⟩ := wx_fold_a p k sents.zipIdx {}
    unfold train at htr
    rw [if_neg (by have := List.length_pos_iff.2 hne; omega)] at htr
    cases htr
    exact ⟨congrArg pruneOne e1, congrArg pruneOne e2⟩
  have hfst : sents.zipIdx.map (·.1) = sents := by simp
  have gaL : ∀ w c, Dict.get? s.aL (w ++ [' ', c]) = if 2 ≤ afterCount p.maxRight sents w c then some (afterCount p.maxRight sents w c) else none := by
    intro w c; rw [haL.1, get?_pruneOne, wx_count_after, hfst]
  have gaR : ∀ w c, Dict.get? s.aR (c :: ' ' :: w) = if 2 ≤ beforeCount p.maxLeft sents w c then some (beforeCount p.maxLeft sents w c) else none := by
    intro w c; rw [haL.2, get?_pruneOne, wx_count_before, hfst]
  obtain ⟨xl, nl, ml, el⟩ := wx_ext_list s.R hg.wR (fun kv => decide ((kv.1.length : Int) - 1 = w.length ∧ kv.1.drop 1 = w)) (fun c => c :: w)
    (fun k => k.headD ' ') (by
      rintro ⟨k, n⟩ _ hq
      simp only [decide_eq_true_eq] at hq
      cases k with
      | nil => simp at hq
      | cons a k => simp at hq ⊢; exact hq.2.symm) (by intro c n; simp) (by intro c; rfl)
    (fun c => suffixCount p.maxRight (tokensOf sents) (c :: w)) _ (fun c => (hcnt (c :: w)).2.1)
  obtain ⟨xr, nr, mr, er⟩ := wx_ext_list s.L hg.wL (fun kv => decide ((kv.1.length : Int) - 1 = w.length ∧ kv.1.dropLast = w)) (fun c => w ++ [c])
    (fun k => k.getLast?.getD ' ') (by
      rintro ⟨k, n⟩ _ hq
      simp only [decide_eq_true_eq] at hq
      rcases List.eq_nil_or_concat k with rfl | ⟨k, a, rfl⟩
      · simp at hq
      · simp at hq ⊢; exact hq.2.symm) (by intro c n; simp) (by intro c; simp)
    (fun c => prefixCount p.maxLeft (tokensOf sents) (w ++ [c])) _ (fun c => (hcnt (w ++ [c])).1)
  obtain ⟨yl, nyl, myl, eyl⟩ := wx_ext_list s.aR hg.waR (fun kv => decide ((kv.1.length : Int) - 2 = w.length ∧ kv.1.drop 2 = w)) (fun c => c :: ' ' :: w)
    (fun k => k.headD ' ') (by
      rintro ⟨k, n⟩ hm hq
      simp only [decide_eq_true_eq] at hq
      obtain ⟨v, c, e, _⟩ := hg.shR k (List.mem_map.2 ⟨_, hm, rfl⟩)
      subst e
      simp at hq ⊢; exact hq.2.symm) (by intro c n; simp; omega) (by intro c; rfl)
    (fun c => beforeCount p.maxLeft sents w c) _ (fun c => gaR w c)
  obtain ⟨yr, nyr, myr, eyr⟩ := wx_ext_list s.aL hg.waL (fun kv => decide ((kv.1.length : Int) - 2 = w.length ∧ kv.1.take (kv.1.length - 2) = w)) (fun c => w ++ [' ', c])
    (fun k => k.getLast?.getD ' ') (by
      rintro ⟨k, n⟩ hm hq
      simp only [decide_eq_true_eq] at hq
      obtain ⟨v, c, e, _⟩ := hg.shL k (List.mem_map.2 ⟨_, hm, rfl⟩)
      subst e
      simp at hq ⊢; exact hq.2.symm) (by intro c n; simp) (by intro c; simp)
    (fun c => afterCount p.maxRight sents w c) _ (fun c => gaL w c)
  refine ⟨xl, yl, xr, yr, nl, nyl, nr, nyr, ml, myl, mr, myr, ?_, ?_⟩
  · unfold accessorVariety
    rw [leftExt_eq s hg, rightExt_eq s hg, el, er, eyl, eyr]
    simp only [List.length_append, List.length_map]
  · have hb : branchingEntropy s w = (entropy (leftExt s w), entropy (rightExt s w)) := by
      unfold branchingEntropy
      have : ∀ l : List (Str × Nat), (if l = [] then (0 : ℝ) else entropy l) = entropy l := by
        intro l; split
        · rename_i h; rw [h]; rfl
        · rfl
      rw [this, this]
    rw [hb, wx_entropy_eq, wx_entropy_eq, leftExt_eq s hg, rightExt_eq s hg, el, er, eyl, eyr]
    simp only [List.map_append, List.map_map]
    rfl

/-- sentences with repeated boundaries: `b` follows both "a" (twice across a boundary) and precedes it around the circle -/
example : boundaries ["xa bc xa".toList, "xa bd".toList, "alone".toList] =
      [("xa".toList, "bc".toList), ("bc".toList, "xa".toList), ("xa".toList, "xa".toList), ("xa".toList, "bd".toList), ("bd".toList, "xa".toList)] ∧
    afterCount 6 ["xa bc xa".toList, "xa bd".toList] "a".toList 'b' = 2 ∧ beforeCount 10 ["xa bc xa".toList, "xa bd".toList] "b".toList 'a' = 2 := by
  decide +kernel

end Props
