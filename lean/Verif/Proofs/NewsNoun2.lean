import Verif.Proofs.NewsNoun
import Verif.Proofs.Hangle
import Verif.Py.Slice
import Mathlib.Tactic.ByContra
namespace NewsNoun
open Py Nested NewsNounSpec

/-- the situation a context stands for -/
def Ctx.sit (x : Ctx) (c : Corpus) : Sit :=
  ⟨c, Dict.get? x.rScores, (· ∈ x.josa), (· ∈ x.verbs), (· ∈ Dict.keys x.nouns), (· ∈ Dict.keys x.scores), (· ∈ Dict.keys x.post)⟩

theorem exists_split {l : Str} (P : Str → Str → Prop) :
    (∃ e, (2 ≤ e ∧ e < l.length) ∧ P (l.take e) (l.drop e)) ↔ ∃ a b, l = a ++ b ∧ 2 ≤ a.length ∧ b ≠ [] ∧ P a b := by
  constructor
  · rintro ⟨e, ⟨h1, h2⟩, h3⟩
    refine ⟨_, _, (List.take_append_drop e l).symm, by simp; omega, ?_, h3⟩
    intro h
    have := congrArg List.length h
    simp at this; omega
  · rintro ⟨a, b, rfl, h1, h2, h3⟩
    have := List.length_pos_iff.2 h2
    exact ⟨a.length, ⟨h1, by simp; omega⟩, by simpa using h3⟩

theorem mem_range2 (n e : Nat) : e ∈ List.range' 2 (n - 2) ↔ 2 ≤ e ∧ e < n := by
  rw [List.mem_range'_1]; omega

theorem any_split {l : Str} (f : Str → Str → Bool) :
    (List.range' 2 (l.length - 2)).any (fun e => f (l.take e) (l.drop e)) = true ↔
      ∃ a b, l = a ++ b ∧ 2 ≤ a.length ∧ b ≠ [] ∧ f a b = true := by
  rw [List.any_eq_true, ← exists_split (l := l) (fun a b => f a b = true)]
  constructor
  · rintro ⟨e, h, h'⟩; exact ⟨e, (mem_range2 _ _).1 h, h'⟩
  · rintro ⟨e, h, h'⟩; exact ⟨e, (mem_range2 _ _).2 h, h'⟩

section
variable (p : Params) (sents : List Str) (x : Ctx) (hx : x.t = trained p sents)
local notation "C" => corpus p sents
local notation "X" => x.sit (corpus p sents)

theorem known_iff (w : Str) : x.known w = true ↔ Known X w := by
  unfold Ctx.known Known Ctx.sit
  rw [Bool.or_eq_true, Dict.isSome_get?_iff, Dict.isSome_get?_iff]

include hx

theorem score_eq (w : Str) : (predict x.rScores x.t w).score = mean (Dict.get? x.rScores) C w := by rw [hx, predict_eq]

theorem rowsum (l : Str) : ((row x.t.lrgraph l).map (·.2)).sum = ((freq C l : Nat) : Int) := by
  rw [hx]; exact sum_row_all p sents l

theorem rownum (l : Str) (b : Str → Bool) (P : Str → Prop) (h : ∀ r, b r = true ↔ P r) :
    (((row x.t.lrgraph l).filter (fun e => b e.1)).map (·.2)).sum = ((num C l P : Nat) : Int) := by
  rw [hx, ← countP_eq_num C l b P h]; exact sum_row_filter p sents l b

theorem lfreq (l : Str) : lFrequency x.t l = ((freq C l : Nat) : Int) := by rw [hx]; exact lFrequency_eq p sents l

omit hx in
theorem share_lt_iff (l : Str) (P : Str → Prop) (q : Rat) :
    q < share C l P ↔ q < (((num C l P : Nat) : Int) : Rat) / (((freq C l : Nat) : Int) : Rat) := by
  unfold share; push_cast; rfl

theorem mem_nounLengths (l : Str) (e : Nat) :
    e ∈ x.nounLengths l ↔ Stem X l (l.take e) ∧ e < l.length := by
  unfold Ctx.nounLengths
  rw [List.mem_filter, mem_range2, Bool.or_eq_true, Dict.isSome_get?_iff, decide_eq_true_eq, score_eq p sents x hx, gt_iff_lt]
  unfold Stem Ctx.sit
  simp only
  constructor
  · rintro ⟨⟨h1, h2⟩, h3⟩
    refine ⟨⟨List.take_prefix _ _, ?_, by simp; omega, h3⟩, h2⟩
    intro h
    have := congrArg List.length h
    simp at this; omega
  · rintro ⟨⟨_, h2, h3, h4⟩, h5⟩
    simp at h3
    exact ⟨⟨by omega, h5⟩, h4⟩

theorem stem_iff (l a : Str) : Stem X l a ↔ ∃ e ∈ x.nounLengths l, a = l.take e := by
  constructor
  · intro h
    obtain ⟨⟨t, ht⟩, h2, _⟩ := id h
    have hl : a.length < l.length := by
      rw [← ht]
      have : t ≠ [] := by rintro rfl; simp at ht; exact h2 ht
      have := List.length_pos_iff.2 this
      simp; omega
    have ha : a = l.take a.length := by rw [← ht]; simp
    exact ⟨a.length, (mem_nounLengths p sents x hx l _).2 ⟨ha ▸ h, hl⟩, ha⟩
  · rintro ⟨e, he, rfl⟩
    exact ((mem_nounLengths p sents x hx l e).1 he).1

omit hx in
theorem pairwise_nounLengths (l : Str) : (x.nounLengths l).Pairwise (· < ·) :=
  (List.pairwise_lt_range' (s := 2) (n := l.length - 2)).filter _

omit hx in
theorem getLast?_max {l : List Nat} (h : l.Pairwise (· < ·)) {m : Nat} (hm : l.getLast? = some m) : m ∈ l ∧ ∀ e ∈ l, e ≤ m := by
  obtain ⟨ys, rfl⟩ := List.getLast?_eq_some_iff.1 hm
  refine ⟨by simp, ?_⟩
  intro e he
  rw [List.pairwise_append] at h
  rcases List.mem_append.1 he with he | he
  · exact Nat.le_of_lt (h.2.2 e he m (by simp))
  · simp at he; omega

theorem isNJsubJ_ok (l : Str) (hl : freq C l ≠ 0) : ∃ b, x.isNJsubJ l = .ok b ∧ (b = true ↔ NJsubJ X l) := by
  unfold Ctx.isNJsubJ
  cases hm : (x.nounLengths l).getLast? with
  | none =>
    refine ⟨false, rfl, ?_⟩
    simp only [Bool.false_eq_true, false_iff]
    rintro ⟨a, ha, _⟩
    obtain ⟨e, he, _⟩ := (stem_iff p sents x hx l a).1 ha
    rw [List.getLast?_eq_none_iff] at hm
    rw [hm] at he; simp at he
  | some m =>
    obtain ⟨hm1, hm2⟩ := getLast?_max (pairwise_nounLengths x l) hm
    have hst := ((mem_nounLengths p sents x hx l m).1 hm1)
    have huniq : ∀ a, Stem X l a → (∀ b, Stem X l b → b.length ≤ a.length) → a = l.take m := by
      intro a ha hmax
      obtain ⟨e, he, rfl⟩ := (stem_iff p sents x hx l a).1 ha
      have h1 := hm2 e he
      have h2 := hmax _ hst.1
      have h3 := ((mem_nounLengths p sents x hx l e).1 he).2
      simp at h2
      have : e = m := by omega
      rw [this]
    simp only
    rw [lfreq p sents x hx, lfreq p sents x hx, rowsum p sents x hx]
    by_cases h0 : freq C (l.take m) = 0
    · refine ⟨false, by rw [if_pos (by exact_mod_cast h0)], ?_⟩
      simp only [Bool.false_eq_true, false_iff]
      rintro ⟨a, ha, hmax, hf, _⟩
      rw [huniq a ha hmax] at hf; exact hf h0
    · rw [if_neg (by exact_mod_cast h0)]
      by_cases h1 : (((freq C l : Nat) : Int) : Rat) / (((freq C (l.take m) : Nat) : Int) : Rat) > 7/10
      · refine ⟨false, by rw [if_pos h1], ?_⟩
        simp only [Bool.false_eq_true, false_iff]
        rintro ⟨a, ha, hmax, _, hq, _⟩
        rw [huniq a ha hmax] at hq
        push_cast at h1
        exact absurd hq (not_le.2 h1)
      · rw [if_neg h1, if_neg (by exact_mod_cast hl)]
        refine ⟨_, rfl, ?_⟩
        have hb := rownum p sents x hx l (fun r => (x.nounLengths l).any (fun e => x.josa.contains ((l ++ r).drop e)))
          (fun r => ∃ b j, Stem X l b ∧ l ++ r = b ++ j ∧ (x.sit C).josa j) (by
            intro r
            rw [List.any_eq_true]
            constructor
            · rintro ⟨e, he, hj⟩
              have h3 := (mem_nounLengths p sents x hx l e).1 he
              refine ⟨l.take e, (l ++ r).drop e, h3.1, ?_, by simpa [Ctx.sit] using hj⟩
              rw [List.drop_append_of_le_length (by omega), ← List.append_assoc, List.take_append_drop]
            · rintro ⟨b, j, hb, hj, hjo⟩
              obtain ⟨e, he, rfl⟩ := (stem_iff p sents x hx l b).1 hb
              have h3 := ((mem_nounLengths p sents x hx l e).1 he).2
              refine ⟨e, he, ?_⟩
              have : (l ++ r).drop e = j := by
                rw [hj, List.drop_append_of_le_length (by simp; omega)]; simp
              rw [this]; simpa [Ctx.sit] using hjo)
        rw [hb, decide_eq_true_eq, gt_iff_lt, ← share_lt_iff p sents]
        constructor
        · intro h
          refine ⟨l.take m, hst.1, ?_, h0, ?_, h⟩
          · intro b hb
            obtain ⟨e, he, rfl⟩ := (stem_iff p sents x hx l b).1 hb
            have := hm2 e he
            simp; omega
          · push_cast at h1; exact not_lt.1 h1
        · rintro ⟨a, _, _, _, _, h⟩; exact h

theorem findNsubJ_ok (l : Str) (hl : freq C l ≠ 0) : ∃ b, x.findNsubJ l = .ok b ∧ ∀ a, (a ∈ b ↔ NsubJ X l a) := by
  unfold Ctx.findNsubJ
  simp only
  rw [lfreq p sents x hx, if_neg (by rintro ⟨_, h⟩; exact hl (by exact_mod_cast h))]
  refine ⟨_, rfl, ?_⟩
  intro a
  simp only [List.mem_filter, List.mem_map, mem_range2, decide_eq_true_eq, gt_iff_lt, score_eq p sents x hx, lfreq p sents x hx]
  unfold NsubJ
  constructor
  · rintro ⟨⟨⟨e, ⟨⟨h1, h2⟩, h3⟩, rfl⟩, h4⟩, h5⟩
    refine ⟨l.drop e, (List.take_append_drop e l).symm, ?_, by simp; omega, by simpa [Ctx.sit] using h3, h4, ?_⟩
    · intro h
      have := congrArg List.length h
      simp at this; omega
    · push_cast at h5; exact h5
  · rintro ⟨j, rfl, h1, h2, h3, h4, h5⟩
    have := List.length_pos_iff.2 h1
    refine ⟨⟨⟨a.length, ⟨⟨h2, by simp; omega⟩, by simpa [Ctx.sit] using h3⟩, by simp⟩, h4⟩, ?_⟩
    push_cast; exact h5

theorem alone_iff (w : Str) : eojeolProportion x.t w = true ↔ Alone X w := by
  unfold eojeolProportion Alone
  simp only
  rw [rowsum p sents x hx]
  show _ ↔ _ < share C w _
  by_cases h0 : freq C w = 0
  · rw [if_pos (by exact_mod_cast h0)]
    unfold share
    rw [h0]; norm_num
  · rw [if_neg (by exact_mod_cast h0), hx, getD_eojeols_rests p sents w h0, decide_eq_true_eq,
      countP_eq_num C w (fun r => decide (r = [])) (· = []) (by simp)]
    have hle : num C w (· = []) ≤ freq C w := List.countP_le_length
    have h1 : share C w (· = []) ≤ 1 := by
      unfold share
      have : (0 : Rat) < freq C w := by exact_mod_cast Nat.pos_of_ne_zero h0
      rw [div_le_iff₀ this, one_mul]; exact_mod_cast hle
    have h2 : ((num C w (· = []) : Nat) : Rat) / ((((freq C w : Nat) : Int)) : Rat) = share C w (· = []) := by unfold share; push_cast; rfl
    rw [h2, min_eq_right h1]

omit hx in
theorem any_clipped (l : Str) (h2 : 2 ≤ l.length) (f : Str → Str → Bool) :
    (subLengths l).any (fun b => f (l.take (l.length - b)) (l.drop (l.length - b))) = true ↔
      ∃ a z, Clipped l a z ∧ f a z = true := by
  have hs : ∀ b, 1 ≤ b → b ≤ l.length → (l.drop (l.length - b)).length = b := by intro b h1 h2; simp; omega
  rw [List.any_eq_true]
  constructor
  · rintro ⟨b, hb, hf⟩
    refine ⟨_, _, ⟨(List.take_append_drop _ l).symm, ?_⟩, hf⟩
    unfold subLengths at hb
    by_cases h : l.length ≤ 3
    · rw [if_pos h] at hb; simp at hb; subst hb; left; exact hs 1 (by omega) (by omega)
    · rw [if_neg h] at hb; simp at hb
      rcases hb with rfl | rfl
      · left; exact hs 1 (by omega) (by omega)
      · right; exact ⟨hs 2 (by omega) (by omega), by omega⟩
  · rintro ⟨a, z, ⟨rfl, hz⟩, hf⟩
    refine ⟨z.length, ?_, ?_⟩
    · unfold subLengths
      rcases hz with hz | ⟨hz, h3⟩
      · rw [hz]; split <;> simp
      · rw [hz, if_neg (by omega)]; simp
    · simpa using hf

theorem isNVsubE_iff (l : Str) (h2 : 2 ≤ l.length) : x.isNVsubE l = true ↔ NVsubE X l := by
  unfold Ctx.isNVsubE
  simp only
  have hrow : row x.t.lrgraph l = [] ↔ freq C l = 0 := by rw [hx]; exact row_nil_iff p sents l
  by_cases h0 : freq C l = 0
  · rw [if_pos (hrow.2 h0)]
    simp only [Bool.false_eq_true, false_iff]
    rintro ⟨a, z, _, _, _, h⟩
    have : (x.sit C).c = C := rfl
    unfold share at h
    rw [this, h0] at h
    norm_num at h
  · rw [if_neg (fun h => h0 (hrow.1 h))]
    rw [any_clipped l h2 (fun l0 r0 => if (!Dict.has x.scores l0 || !Dict.has x.nouns l0) = true then false
      else decide (((((((row x.t.lrgraph l).map (fun f => if eojeolProportion x.t (r0 ++ f.1) = true then f.2 else 0)).sum : Int) : Rat)
      / ((((row x.t.lrgraph l).map (·.2)).sum : Int) : Rat)) > 7/10)))]
    unfold NVsubE
    apply exists_congr; intro a
    apply exists_congr; intro z
    apply and_congr_right; intro _
    have hsum : ((row x.t.lrgraph l).map (fun f => if eojeolProportion x.t (z ++ f.1) = true then f.2 else 0)).sum
        = ((num C l (fun r => Alone X (z ++ r)) : Nat) : Int) := by
      rw [← rownum p sents x hx l (fun r => eojeolProportion x.t (z ++ r)) _ (fun r => alone_iff p sents x hx (z ++ r))]
      induction row x.t.lrgraph l with
      | nil => rfl
      | cons e d ih => rw [List.map_cons, List.sum_cons, List.filter_cons, ih]; split <;> simp
    rw [hsum, rowsum p sents x hx]
    have hb1 : Dict.has x.scores a = true ↔ (x.sit C).S a := Dict.isSome_get?_iff _ _
    have hb2 : Dict.has x.nouns a = true ↔ (x.sit C).T a := Dict.isSome_get?_iff _ _
    rw [← hb1, ← hb2]
    cases h3 : Dict.has x.scores a <;> cases h4 : Dict.has x.nouns a <;> simp [gt_iff_lt]
    show _ ↔ _ < share C l _
    unfold share; rfl

theorem isNWsub_iff (l : Str) (h2 : 2 ≤ l.length) : x.isNWsub l = true ↔ NWsub X l := by
  unfold Ctx.isNWsub
  rw [any_clipped l h2 (fun l0 _ => x.known l0 && decide ((if lFrequency x.t l0 ≤ 0 then (0 : Rat) else (lFrequency x.t l : Rat) / (lFrequency x.t l0 : Rat)) < 1/10))]
  unfold NWsub
  apply exists_congr; intro a
  apply exists_congr; intro z
  apply and_congr_right; intro _
  rw [Bool.and_eq_true, known_iff p sents x, decide_eq_true_eq, lfreq p sents x hx, lfreq p sents x hx]
  apply and_congr_right; intro _
  show _ ↔ freq C a = 0 ∨ 10 * freq C l < freq C a
  by_cases h0 : freq C a = 0
  · rw [if_pos (by omega)]; simp [h0]
  · rw [if_neg (by omega)]
    have hpos : (0 : Rat) < freq C a := by exact_mod_cast Nat.pos_of_ne_zero h0
    push_cast
    rw [div_lt_iff₀ hpos]
    constructor
    · intro h; right
      have : (10 * freq C l : Rat) < freq C a := by linarith
      exact_mod_cast this
    · rintro (h | h)
      · exact absurd h h0
      · have : (10 * freq C l : Rat) < freq C a := by exact_mod_cast h
        linarith

omit hx in
theorem isCompound_iff (l : Str) : x.isCompound l = true ↔ Compound X l := by
  unfold Ctx.isCompound Compound
  simp only
  by_cases h4 : l.length < 4
  · rw [if_pos h4]
    simp only [Bool.false_eq_true, false_iff]
    rintro ⟨h, _⟩; omega
  · rw [if_neg h4]
    have h2 := any_split (l := l) (fun a b => x.known a && x.known b)
    have h3 : (List.range' 2 (l.length - 5)).any (fun e1 => (List.range' (e1 + 2) (l.length - 1 - (e1 + 2))).any (fun e2 =>
        x.known (l.take e1) && x.known (slice l e1 e2) && x.known (l.drop e2))) = true ↔
        ∃ a b d, l = a ++ b ++ d ∧ 2 ≤ a.length ∧ 2 ≤ b.length ∧ 2 ≤ d.length ∧ Known X a ∧ Known X b ∧ Known X d := by
      simp only [List.any_eq_true, List.mem_range'_1, Bool.and_eq_true, known_iff p sents x]
      constructor
      · rintro ⟨e1, ⟨h5, h6⟩, e2, ⟨h7, h8⟩, ⟨h9, h10⟩, h11⟩
        refine ⟨_, _, _, ?_, ?_, ?_, ?_, h9, h10, h11⟩
        · have : slice l 0 e1 ++ slice l e1 e2 = slice l 0 e2 := slice_append l (by omega) (by omega)
          rw [slice_zero, slice_zero] at this
          rw [this, List.take_append_drop]
        · simp; omega
        · rw [length_slice]; omega
        · simp; omega
      · rintro ⟨a, b, d, rfl, h5, h6, h7, h8, h9, h10⟩
        refine ⟨a.length, ⟨h5, by simp; omega⟩, a.length + b.length, ⟨by omega, by simp; omega⟩, ⟨?_, ?_⟩, ?_⟩
        · simpa using h8
        · have : slice (a ++ b ++ d) a.length (a.length + b.length) = b := by
            unfold slice; rw [List.take_left' (by simp)]; simp
          rw [this]; exact h9
        · have : (a ++ b ++ d).drop (a.length + b.length) = d := List.drop_left' (by simp)
          rw [this]; exact h10
    simp only [Bool.and_eq_true, known_iff p sents x] at h2
    split
    · rename_i h; exact ⟨fun _ => ⟨by omega, Or.inl (h2.1 h)⟩, fun _ => rfl⟩
    · rename_i h
      have hno := fun hh => h (h2.2 hh)
      split
      · rw [h3]
        exact ⟨fun h5 => ⟨by omega, Or.inr h5⟩, fun h5 => h5.2.resolve_left hno⟩
      · rename_i h6
        simp only [Bool.false_eq_true, false_iff]
        rintro ⟨_, h5 | ⟨a, b, d, rfl, h7, h8, h9, _⟩⟩
        · exact hno h5
        · apply h6; simp; omega

omit hx in
theorem isNJ_iff (w : Str) : x.isNJ w = true ↔ NJ X w := by
  unfold Ctx.isNJ NJ
  simp only [List.any_eq_true, List.mem_range'_1, Bool.and_eq_true, Bool.or_eq_true, decide_eq_true_eq, known_iff p sents x]
  have hr : ∀ r, (Dict.getD x.rScores r 0 > 0 ↔ ∃ s, (x.sit C).rs r = some s ∧ 0 < s) := by
    intro r
    show (Dict.get? x.rScores r).getD 0 > 0 ↔ ∃ s, Dict.get? x.rScores r = some s ∧ 0 < s
    cases Dict.get? x.rScores r <;> simp
  constructor
  · rintro ⟨e, ⟨h1, h2⟩, h3, h4⟩
    exact ⟨_, _, (List.take_append_drop e w).symm, by simp; omega, h3, h4.imp id (hr _).1⟩
  · rintro ⟨a, r, rfl, h1, h2, h3⟩
    refine ⟨a.length, ⟨h1, by simp; omega⟩, by simpa using h2, ?_⟩
    simpa using h3.imp id (hr _).2

omit hx in
theorem isNV_iff (l : Str) : x.isNV l = true ↔ NV X l := by
  unfold Ctx.isNV NV
  rw [any_split (l := l) (fun a b => (Dict.has x.post a || Dict.has x.nouns a) && x.verbs.contains b)]
  apply exists_congr; intro a
  apply exists_congr; intro b
  have hb1 : Dict.has x.post a = true ↔ (x.sit C).A a := Dict.isSome_get?_iff _ _
  have hb2 : Dict.has x.nouns a = true ↔ (x.sit C).T a := Dict.isSome_get?_iff _ _
  have hb3 : x.verbs.contains b = true ↔ (x.sit C).verb b := by simp [Ctx.sit]
  rw [Bool.and_eq_true, Bool.or_eq_true, hb1, hb2, hb3]

end
end NewsNoun
