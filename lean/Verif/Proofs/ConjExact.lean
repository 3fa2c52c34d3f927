import Verif.Proofs.Conjugation
import Verif.Spec.Conjugation
/-! The forms of `conjugate`, exactly. -/
set_option linter.unusedSimpArgs false
set_option linter.unusedVariables false
namespace Lemma
open Py Hangle Spec

theorem chr_iff {c k x y z a b d : Char} (hc : decomposeList c = .ok (x, y, z)) (hk : decomposeList k = .ok (a, b, d)) :
    c = k ↔ x = a ∧ y = b ∧ z = d := by
  constructor
  · rintro rfl
    rw [hc] at hk
    have := Except.ok.inj hk
    exact ⟨congrArg Prod.fst this, congrArg (fun p => p.2.1) this, congrArg (fun p => p.2.2) this⟩
  · rintro ⟨rfl, rfl, rfl⟩
    exact decomposeList_inj hc hk

/-- the forms that come from one composed syllable -/
theorem mem_compose {p q r : Char} (f : Char → List Str) (s : Str) :
    (∃ a, (compose p q r).map f = .ok a ∧ s ∈ a) ↔ ∃ c', IsSyllableOf c' p q r ∧ s ∈ f c' := by
  constructor
  · rintro ⟨a, h, hs⟩
    obtain ⟨c', h1, rfl⟩ := map_ok h
    exact ⟨c', isSyllableOf_iff.2 h1, hs⟩
  · rintro ⟨c', h1, hs⟩
    exact ⟨f c', map_of_ok (isSyllableOf_iff.1 h1) f, hs⟩

theorem mem_ok {l : List Str} {s : Str} : (∃ a, (Except.ok l : PyM (List Str)) = .ok a ∧ s ∈ a) ↔ s ∈ l := by
  constructor
  · rintro ⟨a, h, hs⟩; cases h; exact hs
  · intro hs; exact ⟨l, rfl, hs⟩

theorem mem_ite {P : Prop} [Decidable P] {m : PyM (List Str)} {s : Str} :
    (∃ a, (if P then m else .ok []) = .ok a ∧ s ∈ a) ↔ P ∧ ∃ a, m = .ok a ∧ s ∈ a := by
  by_cases h : P
  · simp [h]
  · rw [if_neg h, mem_ok]; simp [h]

section
variable {front : Str} {c x y z e i v w r : Char} {es : Str}

/-- the forms of one rule -/
def Gives (rule : Ctx → PyM (List Str)) (k : Ctx) (s : Str) : Prop := ∃ a, rule k = .ok a ∧ s ∈ a

/-- the context of the rules -/
abbrev ctx (front : Str) (c x y z e i v w r : Char) (es : Str) : Ctx := ⟨front ++ [c], front, c, (x, y, z), e :: es, (i, v, w), r⟩

theorem gives_da (s : Str) : Gives ruleDa (ctx front c x y z e i v w r es) s ↔ e = '다' ∧ s = front ++ c :: e :: es := by
  unfold Gives ruleDa
  rw [mem_ite, mem_ok]
  simp

theorem gives_d (s : Str) : Gives ruleD (ctx front c x y z e i v w r es) s ↔
    (z = 'ㄷ' ∧ i = 'ㅇ') ∧ ∃ c', IsSyllableOf c' x y 'ㄹ' ∧ (s = front ++ c' :: e :: es ∨ s = front ++ c :: e :: es) := by
  unfold Gives ruleD
  rw [mem_ite, mem_compose]
  simp

theorem gives_s (s : Str) : Gives ruleS (ctx front c x y z e i v w r es) s ↔
    (z = 'ㅅ' ∧ i = 'ㅇ') ∧ ((c = '벗' ∧ s = front ++ c :: e :: es) ∨ (c ≠ '벗' ∧ ∃ c', IsSyllableOf c' x y ' ' ∧ s = front ++ c' :: e :: es)) := by
  unfold Gives ruleS
  rw [mem_ite]
  dsimp only
  refine and_congr_right (fun _ => ?_)
  by_cases h : c = '벗'
  · rw [if_pos h, mem_ok]; simp [h]
  · rw [if_neg h, mem_compose]; simp [h]

theorem gives_u (s : Str) : Gives ruleU (ctx front c x y z e i v w r es) s ↔
    (y = 'ㅜ' ∧ z = ' ' ∧ i = 'ㅇ' ∧ v = 'ㅓ') ∧ ((c = '푸' ∧ s = front ++ '퍼' :: es) ∨ (c ≠ '푸' ∧ ∃ c', IsSyllableOf c' x 'ㅝ' w ∧ s = front ++ c' :: es)) := by
  unfold Gives ruleU
  rw [mem_ite]
  dsimp only
  refine and_congr_right (fun _ => ?_)
  by_cases h : c = '푸'
  · rw [if_pos h, mem_ok]; simp [h, tail1]
  · rw [if_neg h, mem_compose]; simp [h, tail1]

theorem gives_o (s : Str) : Gives ruleO (ctx front c x y z e i v w r es) s ↔
    (y = 'ㅗ' ∧ z = ' ' ∧ i = 'ㅇ' ∧ v = 'ㅏ') ∧ ∃ c', IsSyllableOf c' x 'ㅘ' w ∧ s = front ++ c' :: es := by
  unfold Gives ruleO
  rw [mem_ite, mem_compose]
  simp [tail1]

theorem gives_eu (s : Str) : Gives ruleEu (ctx front c x y z e i v w r es) s ↔
    (y = 'ㅡ' ∧ z = ' ' ∧ i = 'ㅇ') ∧ (((x = 'ㅇ' ∧ front ≠ []) ∧ s = front ++ e :: es) ∨
      (¬ (x = 'ㅇ' ∧ front ≠ []) ∧ x ≠ 'ㄹ' ∧ ∃ c', IsSyllableOf c' x v w ∧ s = front ++ c' :: es)) := by
  have hl : (front ++ [c]).length > 1 ↔ front ≠ [] := by
    cases front <;> simp
  unfold Gives ruleEu
  rw [mem_ite]
  dsimp only
  refine and_congr_right (fun _ => ?_)
  by_cases h : x = 'ㅇ' ∧ front ≠ []
  · rw [if_pos ⟨h.1, hl.2 h.2⟩, mem_ok]; simp [h]
  · rw [if_neg (fun h' => h ⟨h'.1, hl.1 h'.2⟩), mem_ite, mem_compose]; simp only [h, false_and, false_or, not_false_eq_true, true_and, tail1, List.drop_succ_cons, List.drop_zero, List.mem_singleton]

theorem gives_ra (s : Str) : Gives ruleRa (ctx front c x y z e i v w r es) s ↔
    ((e = '어' ∨ e = '아') ∧ es.head? = some '라') ∧
      ((c = '오' ∧ s = front ++ '와' :: es) ∨ (c = '우' ∧ s = front ++ '워' :: es) ∨ (c = '가' ∧ s = front ++ c :: es) ∨
       ((c ≠ '오' ∧ c ≠ '우' ∧ c ≠ '가') ∧ y ∈ ['ㅓ', 'ㅕ', 'ㅜ', 'ㅠ'] ∧ s = front ++ c :: '어' :: es) ∨
       ((c ≠ '오' ∧ c ≠ '우' ∧ c ≠ '가') ∧ y ∉ ['ㅓ', 'ㅕ', 'ㅜ', 'ㅠ'] ∧ s = front ++ c :: '아' :: es)) := by
  have hl : ((e :: es).take 2 = ['어', '라'] ∨ (e :: es).take 2 = ['아', '라']) ↔ ((e = '어' ∨ e = '아') ∧ es.head? = some '라') := by
    cases es with
    | nil => simp
    | cons a as => simp [or_and_right]
  unfold Gives ruleRa
  rw [mem_ite]
  dsimp only
  rw [hl]
  refine and_congr_right (fun _ => ?_)
  by_cases h1 : c = '오'
  · subst h1; rw [if_pos rfl, mem_ok]; simp [tail1]
  rw [if_neg h1]
  by_cases h2 : c = '우'
  · subst h2; rw [if_pos rfl, mem_ok]; simp [tail1]
  rw [if_neg h2]
  by_cases h3 : c = '가'
  · subst h3; rw [if_pos rfl, mem_ok]; simp [tail1]
  rw [if_neg h3]
  by_cases h4 : y ∈ ['ㅓ', 'ㅕ', 'ㅜ', 'ㅠ']
  · rw [if_pos h4, mem_ok]; simp only [h1, h2, h3, h4]; simp [tail1, h1, h2, h3]
  · rw [if_neg h4, mem_ok]; simp only [h1, h2, h3, h4]; simp [tail1, h1, h2, h3]

theorem gives_reo (s : Str) : Gives ruleReo (ctx front c x y z e i v w r es) s ↔
    ((c = '르' ∧ front.getLast? ≠ some '구') ∧ i = 'ㅇ' ∧ v = 'ㅓ') ∧ ∃ r', IsSyllableOf r' 'ㄹ' v w ∧ s = front ++ c :: r' :: es := by
  unfold Gives ruleReo
  rw [mem_ite, mem_compose]
  simp [tail1]

theorem gives_ha (s : Str) : Gives ruleHa (ctx front c x y z e i v w r es) s ↔
    (c = '하' ∧ i = 'ㅇ' ∧ (v = 'ㅏ' ∨ v = 'ㅓ')) ∧ ∃ r' c', IsSyllableOf r' i 'ㅕ' w ∧ IsSyllableOf c' 'ㅎ' 'ㅐ' w ∧
      (s = front ++ c :: r' :: es ∨ s = front ++ c' :: es) := by
  unfold Gives ruleHa
  rw [mem_ite]
  dsimp only
  refine and_congr_right (fun _ => ?_)
  cases h : compose i 'ㅕ' w with
  | error err =>
    constructor
    · rintro ⟨a, h, _⟩; cases h
    · rintro ⟨r', c', h1, _⟩; rw [isSyllableOf_iff.1 h1] at h; cases h
  | ok r' =>
    dsimp only
    rw [mem_compose]
    constructor
    · rintro ⟨c', h1, hs⟩
      exact ⟨r', c', isSyllableOf_iff.2 h, h1, by simpa [tail1] using hs⟩
    · rintro ⟨r'', c', h0, h1, hs⟩
      rw [isSyllableOf_iff.1 h0] at h; cases h
      exact ⟨c', h1, by simpa [tail1] using hs⟩

theorem gives_hDrop (s : Str) : Gives ruleHDrop (ctx front c x y z e i v w r es) s ↔
    (z = 'ㅎ' ∧ v ≠ ' ') ∧ (((c = '좋' ∨ c = '놓') ∧ s = front ++ c :: e :: es) ∨
      (¬ (c = '좋' ∨ c = '놓') ∧ ∃ c', IsSyllableOf c' x y ' ' ∧ s = front ++ c' :: e :: es)) := by
  unfold Gives ruleHDrop
  rw [mem_ite]
  dsimp only
  refine and_congr_right (fun _ => ?_)
  by_cases h : c = '좋' ∨ c = '놓'
  · rw [if_pos h, mem_ok]; simp [h]
  · rw [if_neg h, mem_compose]; simp only [h]; simp

theorem gives_hMerge (s : Str) : Gives ruleHMerge (ctx front c x y z e i v w r es) s ↔
    ((z = 'ㅎ' ∧ c ≠ '좋') ∧ ((i = 'ㅇ' ∧ v = 'ㅏ') ∨ v = 'ㅓ')) ∧
      ∃ c', IsSyllableOf c' x (if v = 'ㅏ' then 'ㅐ' else 'ㅔ') w ∧ s = front ++ c' :: es := by
  unfold Gives ruleHMerge
  rw [mem_ite, mem_compose]
  simp [tail1]

theorem gives_hNe (s : Str) : Gives ruleHNe (ctx front c x y z e i v w r es) s ↔
    (z = 'ㅎ' ∧ i = 'ㄴ' ∧ v ≠ ' ') ∧ s = front ++ c :: e :: es := by
  unfold Gives ruleHNe
  rw [mem_ite, mem_ok]
  simp

theorem gives_i (s : Str) : Gives ruleI (ctx front c x y z e i v w r es) s ↔
    (r = '어' ∧ y = 'ㅣ' ∧ z = ' ') ∧ ∃ c', IsSyllableOf c' x 'ㅕ' w ∧ (s = front ++ c' :: es ∨ s = front ++ c :: e :: es) := by
  unfold Gives ruleI
  rw [mem_ite, mem_compose]
  simp [tail1]

theorem gives_jong (s : Str) : Gives ruleJong (ctx front c x y z e i v w r es) s ↔
    (v = ' ' ∧ (i = 'ㄴ' ∨ i = 'ㄹ' ∨ i = 'ㅁ' ∨ i = 'ㅂ' ∨ i = 'ㅆ')) ∧ ∃ c', IsSyllableOf c' x y i ∧ s = front ++ c' :: es := by
  unfold Gives ruleJong
  rw [mem_ite, mem_compose]
  simp [tail1]

theorem gives_b (s : Str) : Gives ruleB (ctx front c x y z e i v w r es) s ↔
    z = 'ㅂ' ∧ ∃ c', IsSyllableOf c' x y ' ' ∧
      (((r = '어' ∨ r = '아') ∧ ∃ r', IsSyllableOf r' 'ㅇ' (bVowel (ctx front c x y z e i v w r es)) w ∧ s = front ++ c' :: r' :: es) ∨
       (¬ (r = '어' ∨ r = '아') ∧ i = 'ㅇ' ∧ s = front ++ c' :: e :: es)) := by
  unfold Gives ruleB
  rw [mem_ite]
  dsimp only
  refine and_congr_right (fun _ => ?_)
  have key : ∀ c', (∃ a, ruleBBody (ctx front c x y z e i v w r es) c' = .ok a ∧ s ∈ a) ↔
      (((r = '어' ∨ r = '아') ∧ ∃ r', IsSyllableOf r' 'ㅇ' (bVowel (ctx front c x y z e i v w r es)) w ∧ s = front ++ c' :: r' :: es) ∨
       (¬ (r = '어' ∨ r = '아') ∧ i = 'ㅇ' ∧ s = front ++ c' :: e :: es)) := by
    intro c'
    unfold ruleBBody
    by_cases h : r = '어' ∨ r = '아'
    · rw [if_pos h, mem_compose]; simp [h, tail1]
    · rw [if_neg h, mem_ite, mem_ok]; simp [h, tail1]
  cases h : compose x y ' ' with
  | error err =>
    constructor
    · rintro ⟨a, h, _⟩; cases h
    · rintro ⟨c', h1, _⟩; rw [isSyllableOf_iff.1 h1] at h; cases h
  | ok c' =>
    dsimp only
    rw [key]
    constructor
    · intro hs; exact ⟨c', isSyllableOf_iff.2 h, hs⟩
    · rintro ⟨c'', h0, hs⟩
      rw [isSyllableOf_iff.1 h0] at h; cases h
      exact hs

theorem gives_reu (s : Str) : Gives ruleReu (ctx front c x y z e i v w r es) s ↔
    (c = '르' ∧ (r = '아' ∨ r = '어')) ∧ ∃ p q q0 q1 q2 q' r', front = p ++ [q] ∧ q ≠ '푸' ∧
      decomposeList q = .ok (q0, q1, q2) ∧ IsSyllableOf q' q0 q1 'ㄹ' ∧ IsSyllableOf r' 'ㄹ' v w ∧ s = p ++ q' :: r' :: es := by
  unfold Gives ruleReu
  rw [mem_ite]
  dsimp only
  rcases List.eq_nil_or_concat front with rfl | ⟨p, q, rfl⟩
  · rw [List.getLast?_nil]
    dsimp only
    rw [mem_ok]
    simp
  · have e1 : (p.concat q).getLast? = some q := by simp
    have e2 : (p.concat q).dropLast = p := by simp
    rw [e1, e2]
    dsimp only
    have key : (∃ a, ruleReuBody (ctx (p.concat q) c x y z e i v w r es) p q = .ok a ∧ s ∈ a) ↔
        ∃ q0 q1 q2 q' r', decomposeList q = .ok (q0, q1, q2) ∧ IsSyllableOf q' q0 q1 'ㄹ' ∧ IsSyllableOf r' 'ㄹ' v w ∧ s = p ++ q' :: r' :: es := by
      unfold ruleReuBody decomposeList
      cases hq : decompose q with
      | error err => simp
      | ok o =>
        cases o with
        | none => simp
        | some d =>
          obtain ⟨q0, q1, q2⟩ := d
          dsimp only
          cases h : compose q0 q1 'ㄹ' with
          | error err =>
            constructor
            · rintro ⟨a, h, _⟩; cases h
            · rintro ⟨a, b, d, q', r', hd, h1, _⟩
              cases hd
              rw [isSyllableOf_iff.1 h1] at h; cases h
          | ok q' =>
            dsimp only
            rw [mem_compose]
            constructor
            · rintro ⟨r', h1, hs⟩
              exact ⟨q0, q1, q2, q', r', rfl, isSyllableOf_iff.2 h, h1, by simpa [tail1] using hs⟩
            · rintro ⟨a, b, d, q'', r', hd, h1, h2, hs⟩
              cases hd
              rw [isSyllableOf_iff.1 h1] at h; cases h
              exact ⟨r', h2, by simpa [tail1] using hs⟩
    rw [key]
    constructor
    · rintro ⟨⟨h1, h2, h3⟩, q0, q1, q2, q', r', a, b, d, f⟩
      exact ⟨⟨h1, h3⟩, p, q, q0, q1, q2, q', r', by simp, fun e => h2 (by rw [e]), a, b, d, f⟩
    · rintro ⟨⟨h1, h3⟩, p', q', q0, q1, q2, a, r', he, hn, b, d, f, g⟩
      have he' : p ++ [q] = p' ++ [q'] := by simpa using he
      obtain ⟨rfl, h⟩ := List.append_inj' he' rfl
      cases h
      exact ⟨⟨h1, fun e => hn (Option.some.inj e), h3⟩, q0, q1, q2, a, r', b, d, f, g⟩

theorem gives_default (s : Str) : Gives ruleDefault (ctx front c x y z e i v w r es) s ↔
    v ≠ ' ' ∧ (((z = ' ' ∧ i = 'ㅇ' ∧ v = y) ∧ ∃ c', IsSyllableOf c' x y w ∧ s = front ++ c' :: es) ∨
      (¬ (z = ' ' ∧ i = 'ㅇ' ∧ v = y) ∧ s = front ++ c :: e :: es)) := by
  unfold Gives ruleDefault
  rw [mem_ite]
  dsimp only
  refine and_congr_right (fun _ => ?_)
  by_cases h : z = ' ' ∧ i = 'ㅇ' ∧ v = y
  · rw [if_pos h, mem_compose]; simp [h, tail1]
  · rw [if_neg h, mem_ok]; simp only [h]; simp

/-- the forms of the special rules are exactly the irregular forms of the specification -/
theorem rules_iff (hc : IsSyllableOf c x y z) (he : IsSyllableOf e i v w) (hr : IsSyllableOf r i v ' ') (s : Str) :
    (∃ f ∈ rules, Gives f (ctx front c x y z e i v w r es) s) ↔ Irregular front c x y z e i v w es s := by
  have dc := isSyllableOf_decompose hc
  have dr := isSyllableOf_decompose hr
  obtain ⟨⟨hx, hy, hz⟩, _, _⟩ := compose_inv (isSyllableOf_iff.1 hc)
  obtain ⟨⟨hi, hv, hw⟩, _, _⟩ := compose_inv (isSyllableOf_iff.1 he)
  have hvb : v ≠ ' ' := fun e => blank_not_jung (e ▸ hv)
  have re : r = '어' ↔ i = 'ㅇ' ∧ v = 'ㅓ' := by rw [chr_iff dr (show decomposeList '어' = .ok ('ㅇ', 'ㅓ', ' ') by decide +kernel)]; simp
  have ra : r = '아' ↔ i = 'ㅇ' ∧ v = 'ㅏ' := by rw [chr_iff dr (show decomposeList '아' = .ok ('ㅇ', 'ㅏ', ' ') by decide +kernel)]; simp
  have ceu := chr_iff dc (show decomposeList '으' = .ok ('ㅇ', 'ㅡ', ' ') by decide +kernel)
  have creu := chr_iff dc (show decomposeList '르' = .ok ('ㄹ', 'ㅡ', ' ') by decide +kernel)
  have cbeot := chr_iff dc (show decomposeList '벗' = .ok ('ㅂ', 'ㅓ', 'ㅅ') by decide +kernel)
  have cpu := chr_iff dc (show decomposeList '푸' = .ok ('ㅍ', 'ㅜ', ' ') by decide +kernel)
  have co := chr_iff dc (show decomposeList '오' = .ok ('ㅇ', 'ㅗ', ' ') by decide +kernel)
  have cu := chr_iff dc (show decomposeList '우' = .ok ('ㅇ', 'ㅜ', ' ') by decide +kernel)
  have cga := chr_iff dc (show decomposeList '가' = .ok ('ㄱ', 'ㅏ', ' ') by decide +kernel)
  have cjo := chr_iff dc (show decomposeList '좋' = .ok ('ㅈ', 'ㅗ', 'ㅎ') by decide +kernel)
  have cno := chr_iff dc (show decomposeList '놓' = .ok ('ㄴ', 'ㅗ', 'ㅎ') by decide +kernel)
  have hll : (front ++ [c]).length ≥ 2 ↔ front ≠ [] := by cases front <;> simp
  have key : (∃ f ∈ rules, Gives f (ctx front c x y z e i v w r es) s) ↔
      Gives ruleDa (ctx front c x y z e i v w r es) s ∨ Gives ruleD (ctx front c x y z e i v w r es) s ∨
      Gives ruleReu (ctx front c x y z e i v w r es) s ∨ Gives ruleB (ctx front c x y z e i v w r es) s ∨
      Gives ruleJong (ctx front c x y z e i v w r es) s ∨ Gives ruleS (ctx front c x y z e i v w r es) s ∨
      Gives ruleU (ctx front c x y z e i v w r es) s ∨ Gives ruleO (ctx front c x y z e i v w r es) s ∨
      Gives ruleEu (ctx front c x y z e i v w r es) s ∨ Gives ruleRa (ctx front c x y z e i v w r es) s ∨
      Gives ruleReo (ctx front c x y z e i v w r es) s ∨ Gives ruleHa (ctx front c x y z e i v w r es) s ∨
      Gives ruleHDrop (ctx front c x y z e i v w r es) s ∨ Gives ruleHMerge (ctx front c x y z e i v w r es) s ∨
      Gives ruleHNe (ctx front c x y z e i v w r es) s ∨ Gives ruleI (ctx front c x y z e i v w r es) s := by
    simp [rules]
  rw [key, gives_da, gives_d, gives_reu, gives_b, gives_jong, gives_s, gives_u, gives_o, gives_eu, gives_ra, gives_reo, gives_ha,
    gives_hDrop, gives_hMerge, gives_hNe, gives_i]
  clear key
  constructor
  · rintro (⟨h1, rfl⟩ | ⟨⟨h1, h2⟩, c', h3, rfl | rfl⟩ | ⟨⟨h1, h2⟩, p, q, q0, q1, q2, q', r', h3, h4, h5, h6, h7, rfl⟩ |
      ⟨h1, c', h2, h3⟩ | ⟨⟨h1, _⟩, _⟩ | ⟨⟨h1, h2⟩, h3⟩ | ⟨⟨h1, h2, h3, h4⟩, h5⟩ | ⟨⟨h1, h2, h3, h4⟩, c', h5, rfl⟩ | ⟨⟨h1, h2, h3⟩, h5⟩ |
      ⟨⟨h1, h2⟩, h3⟩ | ⟨⟨⟨h1, h2⟩, h3, h4⟩, r', h5, rfl⟩ | ⟨⟨h1, h2, h3⟩, r', c', h4, h5, rfl | rfl⟩ | ⟨⟨h1, h2⟩, h3⟩ |
      ⟨⟨⟨h1, h2⟩, h3⟩, c', h4, rfl⟩ | ⟨⟨h1, h2, h3⟩, rfl⟩ | ⟨⟨h1, h2, h3⟩, c', h4, rfl | rfl⟩)
    · exact .da h1
    · exact .d c' h1 h2 h3
    · exact .dKeep h1 h2
    · have hq : IsSyllableOf q q0 q1 q2 := by
        obtain ⟨⟨a, b, d⟩, _, _⟩ := compose_inv (isSyllableOf_iff.1 h6)
        rcases decomposeList_korean h5 with hk | hk | hk
        · obtain ⟨d', e1, _, e3⟩ := decomposeList_syllable hk
          rw [h5] at e1; cases e1
          exact isSyllableOf_iff.2 e3
        · rw [decomposeList_consonant hk] at h5; cases h5; exact absurd b blank_not_jung
        · rw [decomposeList_vowel hk] at h5; cases h5; exact absurd a blank_not_cho
      refine .reu p q q0 q1 q2 q' r' h1 h3 h4 ?_ ?_ hq h6 h7
      · rcases h2 with h2 | h2
        · exact (ra.1 h2).1
        · exact (re.1 h2).1
      · rcases h2 with h2 | h2
        · exact .inl (ra.1 h2).2
        · exact .inr (re.1 h2).2
    · rcases h3 with ⟨h3, r', h4, rfl⟩ | ⟨h3, h4, rfl⟩
      · unfold bVowel at h4
        dsimp only at h4
        by_cases hq : front ≠ [] ∧ c ∈ ['답', '곱', '깝', '롭']
        · rw [if_pos ⟨hll.2 hq.1, by simpa using hq.2⟩] at h4
          rcases h3 with h3 | h3
          · exact .bWo c' r' h1 (re.1 h3).1 (.inl (re.1 h3).2) h2 h4
          · exact .bWo c' r' h1 (ra.1 h3).1 (.inr ⟨(ra.1 h3).2, hq⟩) h2 h4
        · rw [if_neg (fun h => hq ⟨hll.1 h.1, by simpa using h.2⟩)] at h4
          rcases h3 with h3 | h3
          · obtain ⟨rfl, rfl⟩ := re.1 h3
            rw [if_neg (by decide), if_neg (by decide), if_pos h3] at h4
            exact .bWo c' r' h1 rfl (.inl rfl) h2 h4
          · obtain ⟨rfl, rfl⟩ := ra.1 h3
            rw [if_neg (by decide), if_neg (by decide), if_neg (by rw [h3]; decide)] at h4
            exact .bWa c' r' h1 rfl rfl hq h2 h4
      · exact .bDrop c' h1 h4 (fun h => h3 (.inr (ra.2 ⟨h4, h⟩))) (fun h => h3 (.inl (re.2 ⟨h4, h⟩))) h2
    · exact absurd h1 hvb
    · rcases h3 with ⟨h3, rfl⟩ | ⟨h3, c', h4, rfl⟩
      · exact .beot h2 h3
      · exact .s c' h1 h2 h3 h4
    · rcases h5 with ⟨h5, rfl⟩ | ⟨h5, c', h6, rfl⟩
      · exact .pu h5 h3 h4
      · exact .u c' h1 h2 h5 h3 h4 h6
    · exact .o c' h1 h2 h3 h4 h5
    · rcases h5 with ⟨h5, rfl⟩ | ⟨h5, h6, c', h7, rfl⟩
      · exact .euDrop (ceu.2 ⟨h5.1, h1, h2⟩) h5.2 h3
      · exact .eu c' h1 h2 h3 (fun h => h6 (creu.1 h).1) (fun h => h5 ⟨(ceu.1 h.1).1, h.2⟩) h7
    · rcases h3 with ⟨h3, rfl⟩ | ⟨h3, rfl⟩ | ⟨h3, rfl⟩ | ⟨⟨h3, h4, h5⟩, h6, rfl⟩ | ⟨⟨h3, h4, h5⟩, h6, rfl⟩
      · exact .raO h1 h2 h3
      · exact .raU h1 h2 h3
      · exact .raGa h1 h2 h3
      · exact .raEo h1 h2 h4 h6
      · exact .raA h1 h2 h3 h5 h6
    · subst h4; exact .reo r' h1 h2 h3 rfl h5
    · subst h2; exact .yeo r' h1 rfl h3 h4
    · subst h2; exact .hae c' h1 rfl h3 h5
    · rcases h3 with ⟨h3, rfl⟩ | ⟨h3, c', h4, rfl⟩
      · exact .hKeep h3
      · exact .hDrop c' h1 (fun h => h3 (.inl h)) (fun h => h3 (.inr h)) h4
    · rcases h3 with ⟨h3, rfl⟩ | rfl
      · rw [if_pos rfl] at h4
        exact .hMergeA c' h1 h2 h3 rfl h4
      · rw [if_neg (by decide)] at h4
        exact .hMergeE c' h1 h2 rfl h4
    · exact .hNe h1 h2
    · exact .iYeo c' h2 h3 (re.1 h1).1 (re.1 h1).2 h4
    · exact .iKeep h2 h3 (re.1 h1).1 (re.1 h1).2
  · intro h
    cases h with
    | da h1 => exact .inl ⟨h1, rfl⟩
    | d c' h1 h2 h3 => exact .inr (.inl ⟨⟨h1, h2⟩, c', h3, .inl rfl⟩)
    | dKeep h1 h2 =>
      obtain ⟨c', h3, _⟩ := compose_ok hx hy (show 'ㄹ' ∈ jongsungList by decide)
      exact .inr (.inl ⟨⟨h1, h2⟩, c', isSyllableOf_iff.2 h3, .inr rfl⟩)
    | reu p q q0 q1 q2 q' r' h1 h2 h3 h4 h5 h6 h7 h8 =>
      refine .inr (.inr (.inl ⟨⟨h1, ?_⟩, p, q, q0, q1, q2, q', r', h2, h3, isSyllableOf_decompose h6, h7, h8, rfl⟩))
      rcases h5 with h5 | h5
      · exact .inl (ra.2 ⟨h4, h5⟩)
      · exact .inr (re.2 ⟨h4, h5⟩)
    | bWo c' r' h1 h2 h3 h4 h5 =>
      refine .inr (.inr (.inr (.inl ⟨h1, c', h4, .inl ⟨?_, r', ?_, rfl⟩⟩)))
      · rcases h3 with h3 | h3
        · exact .inl (re.2 ⟨h2, h3⟩)
        · exact .inr (ra.2 ⟨h2, h3.1⟩)
      · unfold bVowel
        dsimp only
        by_cases hq : front ≠ [] ∧ c ∈ ['답', '곱', '깝', '롭']
        · rw [if_pos ⟨hll.2 hq.1, by simpa using hq.2⟩]; exact h5
        · rw [if_neg (fun h => hq ⟨hll.1 h.1, by simpa using h.2⟩)]
          rcases h3 with rfl | h3
          · rw [if_neg (by decide), if_neg (by decide), if_pos (re.2 ⟨h2, rfl⟩)]; exact h5
          · exact absurd h3.2 hq
    | bWa c' r' h1 h2 h3 h4 h5 h6 =>
      have h0 := ra.2 ⟨h2, h3⟩
      refine .inr (.inr (.inr (.inl ⟨h1, c', h5, .inl ⟨.inr h0, r', ?_, rfl⟩⟩)))
      unfold bVowel
      dsimp only
      subst h3
      rw [if_neg (fun h => h4 ⟨hll.1 h.1, by simpa using h.2⟩), if_neg (by decide), if_neg (by decide), if_neg (by rw [h0]; decide)]
      exact h6
    | bDrop c' h1 h2 h3 h4 h5 =>
      refine .inr (.inr (.inr (.inl ⟨h1, c', h5, .inr ⟨?_, h2, rfl⟩⟩)))
      rintro (h | h)
      · exact h4 (re.1 h).2
      · exact h3 (ra.1 h).2
    | s c' h1 h2 h3 h4 => exact .inr (.inr (.inr (.inr (.inr (.inl ⟨⟨h1, h2⟩, .inr ⟨h3, c', h4, rfl⟩⟩)))))
    | beot h1 h2 => exact .inr (.inr (.inr (.inr (.inr (.inl ⟨⟨(cbeot.1 h2).2.2, h1⟩, .inl ⟨h2, rfl⟩⟩)))))
    | pu h1 h2 h3 => exact .inr (.inr (.inr (.inr (.inr (.inr (.inl ⟨⟨(cpu.1 h1).2.1, (cpu.1 h1).2.2, h2, h3⟩, .inl ⟨h1, rfl⟩⟩))))))
    | u c' h1 h2 h3 h4 h5 h6 => exact .inr (.inr (.inr (.inr (.inr (.inr (.inl ⟨⟨h1, h2, h4, h5⟩, .inr ⟨h3, c', h6, rfl⟩⟩))))))
    | o c' h1 h2 h3 h4 h5 => exact .inr (.inr (.inr (.inr (.inr (.inr (.inr (.inl ⟨⟨h1, h2, h3, h4⟩, c', h5, rfl⟩)))))))
    | euDrop h1 h2 h3 =>
      exact .inr (.inr (.inr (.inr (.inr (.inr (.inr (.inr (.inl ⟨⟨(ceu.1 h1).2.1, (ceu.1 h1).2.2, h3⟩, .inl ⟨⟨(ceu.1 h1).1, h2⟩, rfl⟩⟩))))))))
    | eu c' h1 h2 h3 h4 h5 h6 =>
      exact .inr (.inr (.inr (.inr (.inr (.inr (.inr (.inr (.inl ⟨⟨h1, h2, h3⟩, .inr ⟨fun h => h5 ⟨ceu.2 ⟨h.1, h1, h2⟩, h.2⟩,
        fun h => h4 (creu.2 ⟨h, h1, h2⟩), c', h6, rfl⟩⟩))))))))
    | raO h1 h2 h3 => exact .inr (.inr (.inr (.inr (.inr (.inr (.inr (.inr (.inr (.inl ⟨⟨h1, h2⟩, .inl ⟨h3, rfl⟩⟩)))))))))
    | raU h1 h2 h3 => exact .inr (.inr (.inr (.inr (.inr (.inr (.inr (.inr (.inr (.inl ⟨⟨h1, h2⟩, .inr (.inl ⟨h3, rfl⟩)⟩)))))))))
    | raGa h1 h2 h3 => exact .inr (.inr (.inr (.inr (.inr (.inr (.inr (.inr (.inr (.inl ⟨⟨h1, h2⟩, .inr (.inr (.inl ⟨h3, rfl⟩))⟩)))))))))
    | raEo h1 h2 h3 h4 =>
      refine .inr (.inr (.inr (.inr (.inr (.inr (.inr (.inr (.inr (.inl ⟨⟨h1, h2⟩, .inr (.inr (.inr (.inl ⟨⟨?_, h3, ?_⟩, h4, rfl⟩)))⟩)))))))))
      · intro h; rw [(co.1 h).2.1] at h4; exact absurd h4 (by decide)
      · intro h; rw [(cga.1 h).2.1] at h4; exact absurd h4 (by decide)
    | raA h1 h2 h3 h4 h5 =>
      refine .inr (.inr (.inr (.inr (.inr (.inr (.inr (.inr (.inr (.inl ⟨⟨h1, h2⟩, .inr (.inr (.inr (.inr ⟨⟨h3, ?_, h4⟩, h5, rfl⟩)))⟩)))))))))
      intro h; rw [(cu.1 h).2.1] at h5; exact h5 (by decide)
    | reo r' h1 h2 h3 h4 h5 =>
      exact .inr (.inr (.inr (.inr (.inr (.inr (.inr (.inr (.inr (.inr (.inl ⟨⟨⟨h1, h2⟩, h3, h4⟩, r', by rw [h4]; exact h5, rfl⟩))))))))))
    | yeo r' h1 h2 h3 h4 =>
      obtain ⟨c', h5, _⟩ := compose_ok (show 'ㅎ' ∈ chosungList by decide) (show 'ㅐ' ∈ jungsungList by decide) hw
      exact .inr (.inr (.inr (.inr (.inr (.inr (.inr (.inr (.inr (.inr (.inr (.inl ⟨⟨h1, h2, h3⟩, r', c', by rw [h2]; exact h4, isSyllableOf_iff.2 h5, .inl rfl⟩)))))))))))
    | hae c' h1 h2 h3 h4 =>
      obtain ⟨r', h5, _⟩ := compose_ok hi (show 'ㅕ' ∈ jungsungList by decide) hw
      exact .inr (.inr (.inr (.inr (.inr (.inr (.inr (.inr (.inr (.inr (.inr (.inl ⟨⟨h1, h2, h3⟩, r', c', isSyllableOf_iff.2 h5, h4, .inr rfl⟩)))))))))))
    | hDrop c' h1 h2 h3 h4 =>
      exact .inr (.inr (.inr (.inr (.inr (.inr (.inr (.inr (.inr (.inr (.inr (.inr (.inl ⟨⟨h1, hvb⟩, .inr ⟨fun h => h.elim h2 h3, c', h4, rfl⟩⟩))))))))))))
    | hKeep h1 =>
      refine .inr (.inr (.inr (.inr (.inr (.inr (.inr (.inr (.inr (.inr (.inr (.inr (.inl ⟨⟨?_, hvb⟩, .inl ⟨h1, rfl⟩⟩))))))))))))
      rcases h1 with h1 | h1
      · exact (cjo.1 h1).2.2
      · exact (cno.1 h1).2.2
    | hMergeA c' h1 h2 h3 h4 h5 =>
      exact .inr (.inr (.inr (.inr (.inr (.inr (.inr (.inr (.inr (.inr (.inr (.inr (.inr (.inl ⟨⟨⟨h1, h2⟩, .inl ⟨h3, h4⟩⟩, c',
        by rw [if_pos h4]; exact h5, rfl⟩)))))))))))))
    | hMergeE c' h1 h2 h3 h4 =>
      exact .inr (.inr (.inr (.inr (.inr (.inr (.inr (.inr (.inr (.inr (.inr (.inr (.inr (.inl ⟨⟨⟨h1, h2⟩, .inr h3⟩, c',
        by rw [if_neg (by rw [h3]; decide)]; exact h4, rfl⟩)))))))))))))
    | hNe h1 h2 =>
      exact .inr (.inr (.inr (.inr (.inr (.inr (.inr (.inr (.inr (.inr (.inr (.inr (.inr (.inr (.inl ⟨⟨h1, h2, hvb⟩, rfl⟩))))))))))))))
    | iYeo c' h1 h2 h3 h4 h5 =>
      exact .inr (.inr (.inr (.inr (.inr (.inr (.inr (.inr (.inr (.inr (.inr (.inr (.inr (.inr (.inr ⟨⟨re.2 ⟨h3, h4⟩, h1, h2⟩, c', h5, .inl rfl⟩))))))))))))))
    | iKeep h1 h2 h3 h4 =>
      obtain ⟨c', h5, _⟩ := compose_ok hx (show 'ㅕ' ∈ jungsungList by decide) hw
      exact .inr (.inr (.inr (.inr (.inr (.inr (.inr (.inr (.inr (.inr (.inr (.inr (.inr (.inr (.inr ⟨⟨re.2 ⟨h3, h4⟩, h1, h2⟩, c', isSyllableOf_iff.2 h5, .inr rfl⟩))))))))))))))

theorem not_syllable_blank {c' a d : Char} : ¬ IsSyllableOf c' a ' ' d := by
  intro h
  exact blank_not_jung (compose_inv (isSyllableOf_iff.1 h)).1.2.1

/-- the forms for an ending that begins with a bare consonant -/
theorem rules_bare_iff (hc : IsSyllableOf c x y z) (he : Consonant e) (s : Str) :
    (∃ f ∈ rules, Gives f (ctx front c x y z e e ' ' ' ' e es) s) ↔ BareForm front c x y z e es s := by
  have dc := isSyllableOf_decompose hc
  obtain ⟨⟨hx, hy, hz⟩, _, _⟩ := compose_inv (isSyllableOf_iff.1 hc)
  have n1 : e ≠ '다' := by rintro rfl; revert he; decide
  have n2 : e ≠ '어' := by rintro rfl; revert he; decide
  have n3 : e ≠ '아' := by rintro rfl; revert he; decide
  have ceu := chr_iff dc (show decomposeList '으' = .ok ('ㅇ', 'ㅡ', ' ') by decide +kernel)
  have cbeot := chr_iff dc (show decomposeList '벗' = .ok ('ㅂ', 'ㅓ', 'ㅅ') by decide +kernel)
  have key : (∃ f ∈ rules, Gives f (ctx front c x y z e e ' ' ' ' e es) s) ↔
      Gives ruleDa (ctx front c x y z e e ' ' ' ' e es) s ∨ Gives ruleD (ctx front c x y z e e ' ' ' ' e es) s ∨
      Gives ruleReu (ctx front c x y z e e ' ' ' ' e es) s ∨ Gives ruleB (ctx front c x y z e e ' ' ' ' e es) s ∨
      Gives ruleJong (ctx front c x y z e e ' ' ' ' e es) s ∨ Gives ruleS (ctx front c x y z e e ' ' ' ' e es) s ∨
      Gives ruleU (ctx front c x y z e e ' ' ' ' e es) s ∨ Gives ruleO (ctx front c x y z e e ' ' ' ' e es) s ∨
      Gives ruleEu (ctx front c x y z e e ' ' ' ' e es) s ∨ Gives ruleRa (ctx front c x y z e e ' ' ' ' e es) s ∨
      Gives ruleReo (ctx front c x y z e e ' ' ' ' e es) s ∨ Gives ruleHa (ctx front c x y z e e ' ' ' ' e es) s ∨
      Gives ruleHDrop (ctx front c x y z e e ' ' ' ' e es) s ∨ Gives ruleHMerge (ctx front c x y z e e ' ' ' ' e es) s ∨
      Gives ruleHNe (ctx front c x y z e e ' ' ' ' e es) s ∨ Gives ruleI (ctx front c x y z e e ' ' ' ' e es) s := by
    simp [rules]
  rw [key, gives_da, gives_d, gives_reu, gives_b, gives_jong, gives_s, gives_u, gives_o, gives_eu, gives_ra, gives_reo, gives_ha,
    gives_hDrop, gives_hMerge, gives_hNe, gives_i]
  clear key
  have t1 : (' ' : Char) ≠ 'ㅏ' := by decide
  have t2 : (' ' : Char) ≠ 'ㅓ' := by decide
  have e1 : ('ㅏ' : Char) ≠ 'ㅇ' := by decide
  constructor
  · rintro (⟨h1, rfl⟩ | ⟨⟨h1, h2⟩, c', h3, rfl | rfl⟩ | ⟨⟨h1, h2⟩, _⟩ |
      ⟨h1, c', h2, h3⟩ | ⟨⟨_, h1⟩, c', h2, rfl⟩ | ⟨⟨h1, h2⟩, h3⟩ | ⟨⟨h1, h2, h3, h4⟩, h5⟩ | ⟨⟨h1, h2, h3, h4⟩, c', h5, rfl⟩ | ⟨⟨h1, h2, h3⟩, h5⟩ |
      ⟨⟨h1, h2⟩, h3⟩ | ⟨⟨⟨h1, h2⟩, h3, h4⟩, r', h5, rfl⟩ | ⟨⟨h1, h2, h3⟩, r', c', h4, h5, rfl | rfl⟩ | ⟨⟨h1, h2⟩, h3⟩ |
      ⟨⟨⟨h1, h2⟩, h3⟩, c', h4, rfl⟩ | ⟨⟨h1, h2, h3⟩, rfl⟩ | ⟨⟨h1, h2, h3⟩, c', h4, rfl | rfl⟩)
    · exact absurd h1 n1
    · exact .d c' h2 h1 h3
    · exact .dKeep h2 h1
    · exact absurd h2 (fun h => h.elim n3 n2)
    · rcases h3 with ⟨h3, _⟩ | ⟨_, h4, rfl⟩
      · exact absurd h3 (fun h => h.elim n2 n3)
      · exact .drop c' h4 (.inl h1) h2
    · exact .final c' (by simpa using h1) h2
    · rcases h3 with ⟨h3, rfl⟩ | ⟨h3, c', h4, rfl⟩
      · exact .beot h2 h3
      · exact .drop c' h2 (.inr ⟨h1, h3⟩) h4
    · exact absurd h4 t2
    · exact absurd h4 t1
    · rcases h5 with ⟨h5, rfl⟩ | ⟨h5, h6, c', h7, rfl⟩
      · exact .euDrop h3 (ceu.2 ⟨h5.1, h1, h2⟩) h5.2
      · exact absurd h7 not_syllable_blank
    · exact absurd h1 (fun h => h.elim n2 n3)
    · exact absurd h4 t2
    · exact absurd h3 (fun h => h.elim t1 t2)
    · exact absurd h3 (fun h => h.elim t1 t2)
    · exact absurd rfl h2
    · exact absurd h3 (fun h => h.elim (fun h => t1 h.2) t2)
    · exact absurd rfl h3
    · exact absurd h1 n2
    · exact absurd h1 n2
  · intro h
    cases h with
    | final c' h1 h2 => exact .inr (.inr (.inr (.inr (.inl ⟨⟨rfl, by simpa using h1⟩, c', h2, rfl⟩))))
    | d c' h1 h2 h3 => exact .inr (.inl ⟨⟨h2, h1⟩, c', h3, .inl rfl⟩)
    | dKeep h1 h2 =>
      obtain ⟨c', h3, _⟩ := compose_ok hx hy (show 'ㄹ' ∈ jongsungList by decide)
      exact .inr (.inl ⟨⟨h2, h1⟩, c', isSyllableOf_iff.2 h3, .inr rfl⟩)
    | drop c' h1 h2 h3 =>
      rcases h2 with h2 | ⟨h2, h4⟩
      · exact .inr (.inr (.inr (.inl ⟨h2, c', h3, .inr ⟨fun h => h.elim n2 n3, h1, rfl⟩⟩)))
      · exact .inr (.inr (.inr (.inr (.inr (.inl ⟨⟨h2, h1⟩, .inr ⟨h4, c', h3, rfl⟩⟩)))))
    | beot h1 h2 => exact .inr (.inr (.inr (.inr (.inr (.inl ⟨⟨(cbeot.1 h2).2.2, h1⟩, .inl ⟨h2, rfl⟩⟩)))))
    | euDrop h1 h2 h3 =>
      exact .inr (.inr (.inr (.inr (.inr (.inr (.inr (.inr (.inl ⟨⟨(ceu.1 h2).2.1, (ceu.1 h2).2.2, h1⟩, .inl ⟨⟨(ceu.1 h2).1, h3⟩, rfl⟩⟩))))))))

/-- `conjugate` without vowel harmony reaches the rules -/
theorem conjugate_eq_ctx (hc : IsSyllableOf c x y z) (he : IsSyllableOf e i v w) (hr : IsSyllableOf r i v ' ') :
    conjugate (front ++ [c]) (e :: es) false = conjugateCtx (ctx front c x y z e i v w r es) := by
  have hvb : v ≠ ' ' := fun e' => blank_not_jung (e' ▸ (compose_inv (isSyllableOf_iff.1 he)).1.2.1)
  simp only [conjugate, List.getLast?_concat, isSyllableOf_decompose hc, isSyllableOf_decompose he, conjugateParts, harmony, Bool.false_eq_true, if_false,
    rFirstOf, ne_eq, hvb, not_false_eq_true, if_true, isSyllableOf_iff.1 hr, List.dropLast_concat]

theorem conjugate_eq_bare (enforce : Bool) (hc : IsSyllableOf c x y z) (he : Consonant e) :
    conjugate (front ++ [c]) (e :: es) enforce = conjugateCtx (ctx front c x y z e e ' ' ' ' e es) := by
  simp only [conjugate, List.getLast?_concat, isSyllableOf_decompose hc, decomposeList_consonant he, conjugateParts,
    harmony_blank enforce (x, y, z) (e, ' ', ' ') (e :: es) rfl,
    rFirstOf, ne_eq, not_true_eq_false, if_false, List.head?_cons, List.dropLast_concat]

/-- every rule raises no exception in a call that returns -/
theorem nil_of_no_form {k : Ctx} {b : List Str} (h : conjugateCtx k = .ok b) (hn : ∀ s, ¬ ∃ f ∈ rules, Gives f k s) : ∀ f ∈ rules, f k = .ok [] := by
  intro f hf
  have : ∃ b', runRules k rules = .ok b' := by
    unfold conjugateCtx at h
    cases h' : runRules k rules with
    | error e => rw [h'] at h; cases h
    | ok b' => exact ⟨b', rfl⟩
  obtain ⟨b', hb'⟩ := this
  obtain ⟨a, ha⟩ := rules_ok k rules b' hb' f hf
  cases a with
  | nil => exact ha
  | cons s a => exact absurd ⟨f, hf, _, ha, by simp⟩ (hn s)

theorem mem_ctx_iff {k : Ctx} {b : List Str} (h : conjugateCtx k = .ok b) (s : Str) :
    s ∈ b ↔ (∃ f ∈ rules, Gives f k s) ∨ ((∀ t, ¬ ∃ f ∈ rules, Gives f k t) ∧ Gives ruleDefault k s) := by
  rw [mem_conjugateCtx k b h s]
  refine or_congr Iff.rfl (and_congr_left (fun _ => ⟨?_, nil_of_no_form h⟩))
  rintro hall t ⟨f, hf, a, ha, ht⟩
  rw [hall f hf] at ha; cases ha; cases ht

/-! ### vowel harmony -/

theorem posToNeg_iff {a b : Char} (h : a ∈ positive) : posToNeg a = b ↔ DarkOf a b := by
  have : a = 'ㅏ' ∨ a = 'ㅑ' ∨ a = 'ㅗ' ∨ a = 'ㅛ' := by simpa [positive] using h
  rcases this with rfl | rfl | rfl | rfl
  · exact ⟨by intro e; subst e; exact .a, by intro d; cases d; rfl⟩
  · exact ⟨by intro e; subst e; exact .ya, by intro d; cases d; rfl⟩
  · exact ⟨by intro e; subst e; exact .o, by intro d; cases d; rfl⟩
  · exact ⟨by intro e; subst e; exact .yo, by intro d; cases d; rfl⟩

theorem negToPos_iff {a b : Char} (h : a ∈ negative) : negToPos a = b ↔ DarkOf b a := by
  have : a = 'ㅓ' ∨ a = 'ㅕ' ∨ a = 'ㅜ' ∨ a = 'ㅠ' := by simpa [negative] using h
  rcases this with rfl | rfl | rfl | rfl
  · exact ⟨by intro e; subst e; exact .a, by intro d; cases d; rfl⟩
  · exact ⟨by intro e; subst e; exact .ya, by intro d; cases d; rfl⟩
  · exact ⟨by intro e; subst e; exact .o, by intro d; cases d; rfl⟩
  · exact ⟨by intro e; subst e; exact .yo, by intro d; cases d; rfl⟩

theorem positive_iff {a : Char} : a ∈ positive ↔ Bright a := by
  constructor
  · intro h; exact ⟨_, (posToNeg_iff h).1 rfl⟩
  · rintro ⟨u, d⟩; cases d <;> decide

theorem negative_iff {a : Char} : a ∈ negative ↔ Dark a := by
  constructor
  · intro h; exact ⟨_, (negToPos_iff h).1 rfl⟩
  · rintro ⟨u, d⟩; cases d <;> decide

theorem neuter_iff {a : Char} : a ∈ neuter ↔ a = 'ㅡ' ∨ a = 'ㅣ' := by simp [neuter]

theorem bright_not_dark {a : Char} (h : Bright a) : ¬ Dark a := by
  rintro ⟨u, d⟩
  obtain ⟨u', d'⟩ := h
  cases d <;> cases d'

theorem bright_not_neuter {a : Char} (h : Bright a) : ¬ (a = 'ㅡ' ∨ a = 'ㅣ') := by
  obtain ⟨u', d'⟩ := h
  cases d' <;> decide

theorem dark_not_neuter {a : Char} (h : Dark a) : ¬ (a = 'ㅡ' ∨ a = 'ㅣ') := by
  obtain ⟨u', d'⟩ := h
  cases d' <;> decide

theorem dark_unique {a b b' : Char} (h : DarkOf a b) (h' : DarkOf a b') : b = b' := by cases h <;> cases h' <;> rfl
theorem bright_unique {a b b' : Char} (h : DarkOf b a) (h' : DarkOf b' a) : b = b' := by cases h <;> cases h' <;> rfl

theorem harmonyVowel_unique {v' v'' : Char} (h : HarmonyVowel y z i v v') (h' : HarmonyVowel y z i v v'') : v' = v'' := by
  cases h with
  | brighten _ a1 a2 a3 a4 =>
    cases h' with
    | brighten _ b1 b2 b3 b4 => exact bright_unique a4 b4
    | darken _ b1 b2 b3 b4 => exact absurd b2 (bright_not_dark a2)
    | neuter _ b1 b2 => exact absurd b1 (bright_not_neuter a2)
    | keep b1 b2 b3 => exact absurd ⟨a1, a2, a3, _, a4⟩ b1
  | darken _ a1 a2 a3 a4 =>
    cases h' with
    | brighten _ b1 b2 b3 b4 => exact absurd a2 (bright_not_dark b2)
    | darken _ b1 b2 b3 b4 => exact dark_unique a4 b4
    | neuter _ b1 b2 => exact absurd b1 (dark_not_neuter a2)
    | keep b1 b2 b3 => exact absurd ⟨a1, a2, a3, _, a4⟩ b2
  | neuter _ a1 a2 =>
    cases h' with
    | brighten _ b1 b2 b3 b4 => exact absurd a1 (bright_not_neuter b2)
    | darken _ b1 b2 b3 b4 => exact absurd a1 (dark_not_neuter b2)
    | neuter _ b1 b2 => exact dark_unique a2 b2
    | keep b1 b2 b3 => exact absurd ⟨a1, _, a2⟩ b3
  | keep a1 a2 a3 =>
    cases h' with
    | brighten _ b1 b2 b3 b4 => exact absurd ⟨b1, b2, b3, _, b4⟩ a1
    | darken _ b1 b2 b3 b4 => exact absurd ⟨b1, b2, b3, _, b4⟩ a2
    | neuter _ b1 b2 => exact absurd ⟨b1, _, b2⟩ a3
    | keep b1 b2 b3 => rfl

theorem harmonyVowel_jung (hv : v ∈ jungsungList) {v' : Char} (h : HarmonyVowel y z i v v') : v' ∈ jungsungList := by
  cases h with
  | brighten _ a1 a2 a3 a4 => cases a4 <;> decide
  | darken _ a1 a2 a3 a4 => cases a4 <;> decide
  | neuter _ a1 a2 => cases a2 <;> decide
  | keep => exact hv

theorem harmony_true {v' e' : Char} (he : IsSyllableOf e i v w) (h : HarmonyVowel y z i v v') (he' : IsSyllableOf e' i v' w) :
    harmony true (x, y, z) (i, v, w) (e :: es) = .ok ((i, v', w), e' :: es) := by
  have hs : ∀ e0, setVowel (i, v, w) (e0 :: es) v' = .ok ((i, v', w), e' :: es) := by
    intro e0
    unfold setVowel
    rw [isSyllableOf_iff.1 he']
    rfl
  unfold harmony
  rw [if_pos rfl]
  by_cases c1 : (z ≠ 'ㅂ' ∧ y ∈ positive) ∧ (i = 'ㅇ' ∧ v ∈ negative)
  · have hy := positive_iff.1 c1.1.2
    obtain ⟨u, hu⟩ := negative_iff.1 c1.2.2
    have hh := harmonyVowel_unique h (.brighten u c1.1.1 hy c1.2.1 hu)
    subst hh
    have h1 : harmony1 (x, y, z) ((i, v, w), e :: es) = .ok ((i, v', w), e' :: es) := by
      unfold harmony1
      rw [if_pos c1, show negToPos v = v' from (negToPos_iff c1.2.2).2 hu]
      exact hs e
    have h2 : harmony2 (x, y, z) ((i, v', w), e' :: es) = .ok ((i, v', w), e' :: es) := by
      unfold harmony2
      rw [if_neg (fun hh => bright_not_dark hy (negative_iff.1 hh.1.2))]
    have h3 : harmony3 (x, y, z) ((i, v', w), e' :: es) = .ok ((i, v', w), e' :: es) := by
      unfold harmony3
      rw [if_neg (fun hh => bright_not_neuter hy (neuter_iff.1 hh.1))]
    rw [h1]; dsimp only
    rw [h2]; exact h3
  · have h1 : harmony1 (x, y, z) ((i, v, w), e :: es) = .ok ((i, v, w), e :: es) := by
      unfold harmony1; rw [if_neg c1]
    rw [h1]; dsimp only
    by_cases c2 : (z ≠ 'ㅂ' ∧ y ∈ negative) ∧ (i = 'ㅇ' ∧ v ∈ positive)
    · have hy := negative_iff.1 c2.1.2
      obtain ⟨u, hu⟩ := positive_iff.1 c2.2.2
      have hh := harmonyVowel_unique h (.darken u c2.1.1 hy c2.2.1 hu)
      subst hh
      have h2 : harmony2 (x, y, z) ((i, v, w), e :: es) = .ok ((i, v', w), e' :: es) := by
        unfold harmony2
        rw [if_pos c2, show posToNeg v = v' from (posToNeg_iff c2.2.2).2 hu]
        exact hs e
      have h3 : harmony3 (x, y, z) ((i, v', w), e' :: es) = .ok ((i, v', w), e' :: es) := by
        unfold harmony3
        rw [if_neg (fun hh => dark_not_neuter hy (neuter_iff.1 hh.1))]
      rw [h2]; exact h3
    · have h2 : harmony2 (x, y, z) ((i, v, w), e :: es) = .ok ((i, v, w), e :: es) := by
        unfold harmony2; rw [if_neg c2]
      rw [h2]; dsimp only
      by_cases c3 : y ∈ neuter ∧ v ∈ positive
      · obtain ⟨u, hu⟩ := positive_iff.1 c3.2
        have hh := harmonyVowel_unique h (.neuter u (neuter_iff.1 c3.1) hu)
        subst hh
        unfold harmony3
        rw [if_pos c3, show posToNeg v = v' from (posToNeg_iff c3.2).2 hu]
        exact hs e
      · have hk : HarmonyVowel y z i v v := .keep (fun hh => c1 ⟨⟨hh.1, positive_iff.2 hh.2.1⟩, hh.2.2.1, negative_iff.2 hh.2.2.2⟩)
          (fun hh => c2 ⟨⟨hh.1, negative_iff.2 hh.2.1⟩, hh.2.2.1, positive_iff.2 hh.2.2.2⟩) (fun hh => c3 ⟨neuter_iff.2 hh.1, positive_iff.2 hh.2⟩)
        have hh := harmonyVowel_unique h hk
        subst hh
        have : e' = e := by
          have := isSyllableOf_iff.1 he
          rw [isSyllableOf_iff.1 he'] at this
          exact Except.ok.inj this
        subst this
        unfold harmony3; rw [if_neg c3]

theorem conjugate_harmony {v' e' : Char} (hc : IsSyllableOf c x y z) (he : IsSyllableOf e i v w) (h : HarmonyVowel y z i v v')
    (he' : IsSyllableOf e' i v' w) : conjugate (front ++ [c]) (e :: es) true = conjugate (front ++ [c]) (e' :: es) false := by
  obtain ⟨⟨hi, hv', hw⟩, _⟩ := compose_inv (isSyllableOf_iff.1 he')
  obtain ⟨r, hr, _⟩ := compose_ok hi hv' blank_jong
  rw [conjugate_eq_ctx hc he' (isSyllableOf_iff.2 hr)]
  have hvb : v' ≠ ' ' := fun e' => blank_not_jung (e' ▸ hv')
  simp only [conjugate, List.getLast?_concat, isSyllableOf_decompose hc, isSyllableOf_decompose he, conjugateParts, harmony_true he h he',
    rFirstOf, ne_eq, hvb, not_false_eq_true, if_true, hr, List.dropLast_concat]

theorem harmonyVowel_exists : ∃ v', HarmonyVowel y z i v v' := by
  by_cases c1 : z ≠ 'ㅂ' ∧ Bright y ∧ i = 'ㅇ' ∧ Dark v
  · obtain ⟨u, hu⟩ := c1.2.2.2; exact ⟨u, .brighten u c1.1 c1.2.1 c1.2.2.1 hu⟩
  by_cases c2 : z ≠ 'ㅂ' ∧ Dark y ∧ i = 'ㅇ' ∧ Bright v
  · obtain ⟨u, hu⟩ := c2.2.2.2; exact ⟨u, .darken u c2.1 c2.2.1 c2.2.2.1 hu⟩
  by_cases c3 : (y = 'ㅡ' ∨ y = 'ㅣ') ∧ Bright v
  · obtain ⟨u, hu⟩ := c3.2; exact ⟨u, .neuter u c3.1 hu⟩
  · exact ⟨v, .keep c1 c2 c3⟩

end

end Lemma
