import Verif.Proofs.Regex2
import Verif.Proofs.TokNorm
import Verif.Proofs.Repeat
/-! `re.sub` for the patterns of the normalizers. -/
namespace Regex
open Py RegexTok

section
variable (isWord isDigit : Char → Bool)

theorem pieces_fuel (r : Re) (n m : Nat) (s : Str) (hn : s.length ≤ n) (hm : s.length ≤ m) : pieces isWord isDigit r n s = pieces isWord isDigit r m s := by
  induction n generalizing m s with
  | zero =>
    cases s with
    | nil => cases m <;> rfl
    | cons c cs => simp at hn
  | succ n ih =>
    cases s with
    | nil => cases m <;> rfl
    | cons c cs =>
      cases m with
      | zero => simp at hm
      | succ m =>
        have hn' : cs.length ≤ n := by simpa using hn
        have hm' : cs.length ≤ m := by simpa using hm
        rw [pieces, pieces]
        cases first isWord isDigit r (c :: cs) with
        | none => simp only; rw [ih m cs hn' hm']
        | some y =>
          simp only
          by_cases h : y.2.length ≤ cs.length
          · rw [if_pos h, if_pos h, ih m y.2 (by omega) (by omega)]
          · rw [if_neg h, if_neg h, ih m cs hn' hm']

/-- all pieces of a text -/
abbrev all (r : Re) (s : Str) : List Piece := pieces isWord isDigit r s.length s

theorem all_nil (r : Re) : all isWord isDigit r [] = [] := rfl

theorem all_char (r : Re) (c : Char) (cs : Str) (h : first isWord isDigit r (c :: cs) = none) :
    all isWord isDigit r (c :: cs) = .char c :: all isWord isDigit r cs := by
  show pieces isWord isDigit r (cs.length + 1) (c :: cs) = _
  rw [pieces, h]

theorem all_hit (r : Re) (s : Str) (u : Option Str) (k : Nat) (hk : 1 ≤ k) (hk' : k ≤ s.length) (h : first isWord isDigit r s = some (u, s.drop k)) :
    all isWord isDigit r s = .hit u (s.take k) :: all isWord isDigit r (s.drop k) := by
  cases s with
  | nil => simp at hk'; omega
  | cons c cs =>
    rw [List.length_cons] at hk'
    show pieces isWord isDigit r (cs.length + 1) (c :: cs) = _
    rw [pieces, h]
    have hl : ((c :: cs).drop k).length = cs.length + 1 - k := by simp
    simp only [hl]
    have h1 : cs.length + 1 - k ≤ cs.length := by omega
    have h2 : cs.length + 1 - (cs.length + 1 - k) = k := by omega
    rw [if_pos h1, h2, pieces_fuel isWord isDigit r cs.length ((c :: cs).drop k).length _ (by omega) (Nat.le_refl _)]

/-! ### one class -/

theorem first_set (neg : Bool) (items : List Item) (c : Char) (cs : Str) :
    first isWord isDigit (.set neg items) (c :: cs) = if inSet isWord isDigit neg items c then some (none, cs) else none := by
  unfold first; rw [run_set]; simp only; split <;> rfl

theorem all_set (neg : Bool) (items : List Item) (s : Str) :
    all isWord isDigit (.set neg items) s = s.map (fun c => if inSet isWord isDigit neg items c then .hit none [c] else .char c) := by
  induction s with
  | nil => rfl
  | cons c cs ih =>
    rw [List.map_cons, ← ih]
    by_cases h : inSet isWord isDigit neg items c = true
    · rw [if_pos h, all_hit isWord isDigit _ (c :: cs) none 1 (Nat.le_refl _) (by simp) (by rw [first_set, if_pos h]; rfl)]
      rfl
    · rw [if_neg h, all_char isWord isDigit _ c cs (by rw [first_set, if_neg h])]

theorem subConst_set (neg : Bool) (items : List Item) (p : Char → Bool) (hp : ∀ c, inSet isWord isDigit neg items c = p c) (s : Str) :
    subConst isWord isDigit (.set neg items) [' '] s = Normalizer.blankOut p s := by
  have e : inSet isWord isDigit neg items = p := funext hp
  unfold subConst Normalizer.blankOut
  have := all_set isWord isDigit neg items s
  unfold all at this
  rw [this, e]
  induction s with
  | nil => rfl
  | cons c cs ih =>
    rw [List.map_cons, List.map_cons, List.flatMap_cons, ih (all_set isWord isDigit neg items cs)]
    by_cases h : p c = true <;> simp [h]

/-! ### `\s+` -/

theorem inSet_space (c : Char) : inSet isWord isDigit false [.space] c = isSpace c := by simp [inSet, Item.has]

theorem collapse_run (s : Str) (c : Char) (h : isSpace c = true) : collapse (c :: s) = ' ' :: collapse (s.drop (runLength isSpace s)) := by
  have hgo : ∀ s : Str, collapseGo true s = collapseGo false (s.drop (runLength isSpace s)) := by
    intro s
    induction s with
    | nil => rfl
    | cons d t ih =>
      by_cases hd : isSpace d = true
      · have hr : runLength isSpace (d :: t) = runLength isSpace t + 1 := by simp [runLength, hd]
        rw [hr, List.drop_succ_cons, ← ih]
        simp [collapseGo, hd]
      · have hr : runLength isSpace (d :: t) = 0 := by simp [runLength, hd]
        rw [hr, List.drop_zero]
        simp [collapseGo, hd]
  unfold collapse
  rw [collapseGo, if_pos h]
  simp only [Bool.false_eq_true, if_false]
  rw [hgo]

theorem subConst_space (s : Str) : subConst isWord isDigit (.seq (.set false [.space]) (.star (.set false [.space]))) [' '] s = collapse s := by
  have hin : inSet isWord isDigit false [.space] = isSpace := funext (inSet_space isWord isDigit)
  unfold subConst
  show (all isWord isDigit _ s).flatMap _ = _
  generalize hN : s.length = N
  induction N using Nat.strongRecOn generalizing s with
  | _ N ih =>
    cases s with
    | nil => rfl
    | cons c cs =>
      by_cases h : isSpace c = true
      · have hr : runLength isSpace (c :: cs) = runLength isSpace cs + 1 := by simp [runLength, h]
        have hle := runLength_le isSpace cs
        have hf : first isWord isDigit (.seq (.set false [.space]) (.star (.set false [.space]))) (c :: cs) = some (none, (c :: cs).drop (runLength isSpace cs + 1)) := by
          unfold first; rw [head?_plus_set, hin, hr]; simp
        rw [all_hit isWord isDigit _ (c :: cs) none (runLength isSpace cs + 1) (by omega) (by simp; omega) hf, collapse_run cs c h, List.flatMap_cons]
        rw [ih ((c :: cs).drop (runLength isSpace cs + 1)).length (by rw [← hN]; simp; omega) _ rfl]
        rfl
      · have hr : runLength isSpace (c :: cs) = 0 := by simp [runLength, h]
        have hf : first isWord isDigit (.seq (.set false [.space]) (.star (.set false [.space]))) (c :: cs) = none := by
          unfold first; rw [head?_plus_set, hin, hr]; simp
        rw [all_char isWord isDigit _ c cs hf, List.flatMap_cons, ih cs.length (by rw [← hN]; simp) cs rfl]
        have : collapse (c :: cs) = c :: collapse cs := by unfold collapse; rw [collapseGo, if_neg h]
        rw [this]; rfl

/-! ### `(\w…\w)\1{j,}` -/

/-- `\w…\w`, `k + 1` times -/
def wordsRe : Nat → Re
  | 0 => .set false [.word]
  | k + 1 => .seq (.set false [.word]) (wordsRe k)

theorem inSet_word (c : Char) : inSet isWord isDigit false [.word] c = isWord c := by simp [inSet, Item.has]

theorem run_words (k : Nat) (u : Option Str) (s : Str) :
    run isWord isDigit (wordsRe k) (u, s) = if (s.take (k + 1)).length = k + 1 ∧ (s.take (k + 1)).all isWord = true then [(u, s.drop (k + 1))] else [] := by
  induction k generalizing s with
  | zero =>
    unfold wordsRe
    rw [run_set]
    cases s with
    | nil => simp
    | cons c cs => simp only [inSet_word]; by_cases h : isWord c = true <;> simp [h]
  | succ k ih =>
    unfold wordsRe
    rw [run, run_set]
    cases s with
    | nil => simp
    | cons c cs =>
      simp only [inSet_word]
      by_cases h : isWord c = true
      · simp only [h, if_true, List.flatMap_cons, List.flatMap_nil, List.append_nil, ih]
        simp [h]
      · simp [h]

theorem run_ref (u s : Str) : run isWord isDigit .ref (some u, s) = if u.isPrefixOf s then [(some u, s.drop u.length)] else [] := rfl

theorem head?_starRef (u : Str) (hu : u ≠ []) (n : Nat) (s : Str) :
    (starM (run isWord isDigit .ref) n (some u, s)).head? = some (some u, s.drop (u.length * TokNorm.copies u n s)) := by
  have hpos : 0 < u.length := List.length_pos_iff.2 hu
  induction n generalizing s with
  | zero => simp [starM, TokNorm.copies]
  | succ n ih =>
    rw [starM, run_ref]
    unfold TokNorm.copies
    by_cases h : u.isPrefixOf s = true
    · have hle : u.length ≤ s.length := (List.isPrefixOf_iff_prefix.1 h).length_le
      have hc : u ≠ [] ∧ u.isPrefixOf s = true := ⟨hu, h⟩
      rw [if_pos h, if_pos hc, List.filter_cons_of_pos (by simp; omega), List.filter_nil, List.flatMap_cons, List.flatMap_nil, List.append_nil,
        List.head?_append, ih, List.drop_drop]
      simp only [Option.some_or]
      congr 3
      rw [Nat.mul_add]; omega
    · have hc : ¬ (u ≠ [] ∧ u.isPrefixOf s = true) := fun h' => h h'.2
      rw [if_neg h, if_neg hc]
      simp

theorem copies_fuel (u : Str) (hu : u ≠ []) (n m : Nat) (s : Str) (hn : s.length ≤ n) (hm : s.length ≤ m) : TokNorm.copies u n s = TokNorm.copies u m s := by
  obtain ⟨r, h1, h2⟩ := TokNorm.copies_spec hu n s hn
  obtain ⟨r', h1', h2'⟩ := TokNorm.copies_spec hu m s hm
  exact (TokNorm.copies_unique hu (h1.symm.trans h1') h2 h2').1

/-- `\1{j,}` after a group that captured `u` -/
theorem head?_refs (u : Str) (hu : u ≠ []) (j : Nat) (s : Str) :
    (run isWord isDigit (copies j .ref (.star .ref)) (some u, s)).head? =
      if j ≤ TokNorm.copies u s.length s then some (some u, s.drop (u.length * TokNorm.copies u s.length s)) else none := by
  have hpos : 0 < u.length := List.length_pos_iff.2 hu
  induction j generalizing s with
  | zero =>
    unfold copies
    rw [run, if_pos (Nat.zero_le _)]
    exact head?_starRef isWord isDigit u hu s.length s
  | succ j ih =>
    unfold copies
    rw [run, run_ref]
    cases hs : s with
    | nil =>
      have : u.isPrefixOf ([] : Str) = false := by cases u with
        | nil => exact absurd rfl hu
        | cons c u => rfl
      rw [this]
      simp [TokNorm.copies]
    | cons c cs =>
      rw [← hs]
      have hlen : s.length = cs.length + 1 := by rw [hs]; rfl
      by_cases h : u.isPrefixOf s = true
      · have hle : u.length ≤ s.length := (List.isPrefixOf_iff_prefix.1 h).length_le
        have hcop : TokNorm.copies u s.length s = TokNorm.copies u (s.drop u.length).length (s.drop u.length) + 1 := by
          rw [hlen]
          conv => lhs; unfold TokNorm.copies
          rw [if_pos ⟨hu, h⟩]
          congr 1
          apply copies_fuel u hu
          · simp; omega
          · exact Nat.le_refl _
        rw [if_pos h, List.flatMap_cons, List.flatMap_nil, List.append_nil, ih, hcop]
        by_cases hj : j ≤ TokNorm.copies u (s.drop u.length).length (s.drop u.length)
        · rw [if_pos hj, if_pos (by omega), List.drop_drop]
          congr 3
          rw [Nat.mul_add]; omega
        · rw [if_neg hj, if_neg (by omega)]
      · have hcop : TokNorm.copies u s.length s = 0 := by
          rw [hlen]
          unfold TokNorm.copies
          rw [if_neg (fun h' => h h'.2)]
        rw [if_neg h, hcop, if_neg (by omega)]; rfl

abbrev repeatRe (k j : Nat) : Re := .seq (.group (wordsRe k)) (copies j .ref (.star .ref))

theorem first_repeat (k j : Nat) (s : Str) :
    first isWord isDigit (repeatRe k j) s =
      if (s.take (k + 1)).length = k + 1 ∧ (s.take (k + 1)).all isWord = true ∧ j ≤ TokNorm.copies (s.take (k + 1)) s.length (s.drop (k + 1)) then
        some (some (s.take (k + 1)), s.drop ((k + 1) * (TokNorm.copies (s.take (k + 1)) s.length (s.drop (k + 1)) + 1))) else none := by
  unfold first
  rw [run, run, run_words]
  by_cases h : (s.take (k + 1)).length = k + 1 ∧ (s.take (k + 1)).all isWord = true
  · have hle : k + 1 ≤ s.length := by have := h.1; rw [List.length_take] at this; omega
    have hu : s.take (k + 1) ≠ [] := by
      intro h0; have := h.1; rw [h0] at this; simp at this
    rw [if_pos h]
    simp only [List.map_cons, List.map_nil, List.flatMap_cons, List.flatMap_nil, List.append_nil]
    have hcap : s.take (s.length - (s.drop (k + 1)).length) = s.take (k + 1) := by
      congr 1; rw [List.length_drop]; omega
    rw [hcap, head?_refs isWord isDigit _ hu, h.1, copies_fuel _ hu (s.drop (k + 1)).length s.length _ (Nat.le_refl _) (by simp)]
    by_cases hj : j ≤ TokNorm.copies (s.take (k + 1)) s.length (s.drop (k + 1))
    · rw [if_pos hj, if_pos ⟨rfl, h.2, hj⟩, List.drop_drop]
      congr 3
      rw [Nat.mul_add]; omega
    · rw [if_neg hj, if_neg (fun h' => hj h'.2.2)]
  · rw [if_neg h, if_neg (fun h' => h ⟨h'.1, h'.2.1⟩)]; rfl

theorem subGo_skip (k n m : Nat) (s : Str) (h : m ≤ s.length) : TokNorm.subGo isWord k n m s = TokNorm.subGo isWord k n 0 (s.drop m) := by
  induction m generalizing s with
  | zero => rfl
  | succ m ih =>
    cases s with
    | nil => simp at h
    | cons c cs => rw [TokNorm.subGo, ih cs (by simpa using h)]; rfl

theorem copies_le (u : Str) (hu : u ≠ []) (n : Nat) (s : Str) (h : s.length ≤ n) : u.length * TokNorm.copies u n s ≤ s.length := by
  obtain ⟨r, h1, _⟩ := TokNorm.copies_spec hu n s h
  have := congrArg List.length h1
  rw [List.length_append, TokNorm.length_copiesOf, Nat.mul_comm] at this
  omega

theorem subGroup_width (k n : Nat) (s : Str) : subGroup isWord isDigit (repeatRe k 3) n s = TokNorm.subWidth isWord (k + 1) n s := by
  unfold subGroup TokNorm.subWidth
  show (all isWord isDigit _ s).flatMap _ = _
  generalize hN : s.length = N
  induction N using Nat.strongRecOn generalizing s with
  | _ N ih =>
    cases s with
    | nil => rfl
    | cons c cs =>
      have hf := first_repeat isWord isDigit k 3 (c :: cs)
      rw [TokNorm.subGo]
      by_cases h : ((c :: cs).take (k + 1)).length = k + 1 ∧ ((c :: cs).take (k + 1)).all isWord = true ∧
          3 ≤ TokNorm.copies ((c :: cs).take (k + 1)) (c :: cs).length ((c :: cs).drop (k + 1))
      · rw [if_pos h] at hf
        have hu : (c :: cs).take (k + 1) ≠ [] := by simp
        have hcop : TokNorm.copies ((c :: cs).take (k + 1)) (c :: cs).length ((c :: cs).drop (k + 1)) =
            TokNorm.copies ((c :: cs).take (k + 1)) cs.length ((c :: cs).drop (k + 1)) := by
          apply copies_fuel _ hu
          · simp; omega
          · simp
        have hle := copies_le _ hu cs.length ((c :: cs).drop (k + 1)) (by simp)
        rw [h.1] at hle
        have h3 := h.2.2
        rw [hcop] at hf h3
        obtain ⟨M, hM⟩ : ∃ M, TokNorm.copies ((c :: cs).take (k + 1)) cs.length ((c :: cs).drop (k + 1)) = M := ⟨_, rfl⟩
        rw [hM] at hf hle h3
        rw [hM]
        have hlen : k + 1 ≤ (c :: cs).length := by have := h.1; rw [List.length_take] at this; omega
        have hb : (k + 1) * (M + 1) ≤ (c :: cs).length := by
          rw [List.length_drop] at hle; rw [Nat.mul_add]; omega
        have hb1 : 1 ≤ (k + 1) * (M + 1) := Nat.mul_pos (by omega) (by omega)
        rw [all_hit isWord isDigit _ (c :: cs) _ _ hb1 hb hf, List.flatMap_cons, if_pos ⟨h.1, h.2.1, h3⟩]
        rw [ih ((c :: cs).drop ((k + 1) * (M + 1))).length (by rw [← hN]; simp; omega) _ rfl]
        rw [subGo_skip isWord (k + 1) n ((k + 1) * (M + 1) - 1) cs (by rw [List.length_cons] at hb; omega)]
        congr 2
      · rw [if_neg h] at hf
        have h' : ¬ (((c :: cs).take (k + 1)).length = k + 1 ∧ ((c :: cs).take (k + 1)).all isWord = true ∧
          TokNorm.copies ((c :: cs).take (k + 1)) cs.length ((c :: cs).drop (k + 1)) ≥ 3) := by
          rintro ⟨a, b, d⟩
          refine h ⟨a, b, ?_⟩
          rw [copies_fuel _ (by simp) (c :: cs).length cs.length _ (by simp; omega) (by simp)]
          exact d
        rw [all_char isWord isDigit _ c cs hf, List.flatMap_cons, if_neg h', ih cs.length (by rw [← hN]; simp) cs rfl]
        rfl


theorem copies_replicate (c : Char) (m n : Nat) (t : Str) (ht : t.head? ≠ some c) (hn : m + t.length ≤ n) :
    TokNorm.copies [c] n (List.replicate m c ++ t) = m := by
  induction m generalizing n with
  | zero =>
    cases n with
    | zero => rfl
    | succ n =>
      unfold TokNorm.copies
      refine if_neg ?_
      rintro ⟨_, h⟩
      cases t with
      | nil => simp at h
      | cons d t => simp at h; exact ht (by simp [h])
  | succ m ih =>
    cases n with
    | zero => omega
    | succ n =>
      unfold TokNorm.copies
      rw [if_pos ⟨by simp, by simp [List.replicate_succ]⟩, List.replicate_succ, List.cons_append]
      have : (c :: (List.replicate m c ++ t)).drop [c].length = List.replicate m c ++ t := rfl
      rw [this, ih n (by omega)]

theorem exists_run (c : Char) (cs : Str) : ∃ m t, cs = List.replicate m c ++ t ∧ t.head? ≠ some c := by
  induction cs with
  | nil => exact ⟨0, [], rfl, by simp⟩
  | cons d cs ih =>
    by_cases h : d = c
    · subst h
      obtain ⟨m, t, e, ht⟩ := ih
      exact ⟨m + 1, t, by rw [e, List.replicate_succ]; rfl, ht⟩
    · exact ⟨0, d :: cs, rfl, by simpa using h⟩

theorem first_run (j : Nat) (c : Char) (m : Nat) (t : Str) (ht : t.head? ≠ some c) :
    first isWord isDigit (repeatRe 0 j) (c :: (List.replicate m c ++ t)) = if isWord c = true ∧ j ≤ m then some (some [c], t) else none := by
  rw [first_repeat]
  have h1 : (c :: (List.replicate m c ++ t)).take (0 + 1) = [c] := rfl
  have h2 : (c :: (List.replicate m c ++ t)).drop (0 + 1) = List.replicate m c ++ t := rfl
  rw [h1, h2, copies_replicate c m _ t ht (by simp)]
  have h3 : (c :: (List.replicate m c ++ t)).drop ((0 + 1) * (m + 1)) = t := by
    rw [Nat.zero_add, Nat.one_mul, List.drop_succ_cons]
    exact List.drop_left' (by simp)
  rw [h3]
  by_cases h : isWord c = true ∧ j ≤ m
  · rw [if_pos h, if_pos ⟨rfl, by simp [h.1], h.2⟩]
  · rw [if_neg h, if_neg]
    rintro ⟨_, a, b⟩
    exact h ⟨by simpa using a, b⟩

theorem subGroup_short (j n : Nat) (c : Char) (m : Nat) (t : Str) (ht : t.head? ≠ some c) (h : ¬ (isWord c = true ∧ j + 1 ≤ m)) :
    subGroup isWord isDigit (repeatRe 0 j) n (List.replicate m c ++ t) = List.replicate m c ++ subGroup isWord isDigit (repeatRe 0 j) n t := by
  induction m with
  | zero => rfl
  | succ m ih =>
    rw [List.replicate_succ, List.cons_append, List.cons_append, ← ih (fun h' => h ⟨h'.1, by omega⟩)]
    unfold subGroup
    show (all isWord isDigit _ _).flatMap _ = _
    rw [all_char, List.flatMap_cons]
    · rfl
    · rw [first_run _ _ _ _ _ _ ht, if_neg]
      rintro ⟨a, b⟩
      exact h ⟨a, by omega⟩

theorem subGroup_repeat (j n : Nat) (s : Str) : subGroup isWord isDigit (repeatRe 0 j) n s = Hangle.repeatSub isWord (j + 1) n s := by
  generalize hN : s.length = N
  induction N using Nat.strongRecOn generalizing s with
  | _ N ih =>
    cases s with
    | nil => rfl
    | cons c cs =>
      obtain ⟨m, t, e, ht⟩ := exists_run c cs
      subst e
      have hlen : t.length < N := by rw [← hN]; simp; omega
      have iht := ih t.length hlen t rfl
      have hm : Hangle.repeatSub isWord (j + 1) n (c :: (List.replicate m c ++ t)) =
          (if isWord c && m + 1 ≥ j + 1 then List.replicate n c else List.replicate (m + 1) c) ++ Hangle.repeatSub isWord (j + 1) n t := by
        show Hangle.repeatSubGo isWord (j + 1) n c 0 (List.replicate m c ++ t) = _
        rw [Hangle.repeatSubGo_replicate, Nat.zero_add]
        cases t with
        | nil => simp [Hangle.repeatSubGo, Hangle.repeatSub]
        | cons d t =>
          have hd : d ≠ c := fun h => ht (by simp [h])
          rw [Hangle.repeatSubGo, if_neg hd]; rfl
      rw [hm, ← iht]
      by_cases h : isWord c = true ∧ j ≤ m
      · have hf := first_run isWord isDigit j c m t ht
        rw [if_pos h] at hf
        have hdrop : (c :: (List.replicate m c ++ t)).drop (m + 1) = t := by
          rw [List.drop_succ_cons]; exact List.drop_left' (by simp)
        have hc : (isWord c && decide (m + 1 ≥ j + 1)) = true := by simp [h.1, h.2]
        rw [if_pos hc]
        unfold subGroup
        show (all isWord isDigit _ _).flatMap _ = _
        rw [all_hit isWord isDigit _ _ (some [c]) (m + 1) (by omega) (by simp) (by rw [hdrop]; exact hf), hdrop, List.flatMap_cons]
        congr 1
        simp only [Option.getD_some]
        generalize n = k
        induction k with
        | zero => rfl
        | succ k ih => simp [List.replicate_succ, ih]
      · have hc : ¬ (isWord c && decide (m + 1 ≥ j + 1)) = true := by
          intro h'; simp at h'; exact h h'
        rw [if_neg hc]
        have := subGroup_short isWord isDigit j n c (m + 1) t ht (fun h' => h ⟨h'.1, by omega⟩)
        rw [← this, List.replicate_succ]; rfl

end
end Regex
