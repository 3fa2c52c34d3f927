import Verif.Proofs.NewsPos5
import Verif.Proofs.Hangle
import Mathlib.Tactic.ByContra
/-! Compound predicators. -/
namespace NewsPos
open Py PosSpec

theorem decompose_ok (c : Char) : ∃ o, Hangle.decompose c = .ok o ∧ (o = none ↔ ¬ Spec.Korean c) := by
  by_cases h : Spec.Korean c
  · rcases h with h | h | h
    · obtain ⟨x, y, z, _, _, _, hd, _⟩ := Hangle.decompose_syllable h; exact ⟨_, hd, by simp [Spec.Korean, h]⟩
    · exact ⟨_, Hangle.decompose_consonant h, by simp [Spec.Korean, h]⟩
    · exact ⟨_, Hangle.decompose_vowel h, by simp [Spec.Korean, h]⟩
  · exact ⟨_, Hangle.decompose_nonkorean h, by simp [h]⟩

theorem joinable_iff (stem eomi : Str) : checkSuffixPrefix stem eomi = .ok true ↔ Joinable stem eomi := by
  unfold checkSuffixPrefix Joinable
  cases hs : stem.getLast? with
  | none => simp
  | some x =>
    cases he : eomi.head? with
    | none => simp
    | some y =>
      dsimp only
      obtain ⟨o, hx, -⟩ := decompose_ok x
      obtain ⟨o', hy, -⟩ := decompose_ok y
      rw [hx, hy]
      cases o with
      | none => simp [hx]
      | some l =>
        have ex : (∃ x_1 y_1 l_1, some x = some x_1 ∧ some y = some y_1 ∧ Hangle.decompose x_1 = .ok (some l_1) ∧
            (l_1.2.2 ∈ ['ㄹ', 'ㅂ'] → ∃ r, Hangle.decompose y_1 = .ok (some r) ∧ r.1 ∉ ['ㄴ', 'ㄹ', 'ㅁ', 'ㅂ']) ∧
            (l_1.2.1 = 'ㅡ' ∧ l_1.2.2 = ' ' → ∃ r, Hangle.decompose y_1 = .ok (some r) ∧ ¬ (r.1 = 'ㅇ' ∧ r.2.1 ∈ ['ㅓ', 'ㅏ']))) ↔
            (l.2.2 ∈ ['ㄹ', 'ㅂ'] → ∃ r, o' = some r ∧ r.1 ∉ ['ㄴ', 'ㄹ', 'ㅁ', 'ㅂ']) ∧
            (l.2.1 = 'ㅡ' ∧ l.2.2 = ' ' → ∃ r, o' = some r ∧ ¬ (r.1 = 'ㅇ' ∧ r.2.1 ∈ ['ㅓ', 'ㅏ'])) := by
          constructor
          · rintro ⟨x', y', l', h1, h2, h3, h4, h5⟩
            cases h1
            cases h2
            rw [hx] at h3
            cases h3
            rw [hy] at h4 h5
            simp only [Except.ok.injEq] at h4 h5
            exact ⟨h4, h5⟩
          · rintro ⟨h4, h5⟩
            refine ⟨x, y, l, rfl, rfl, hx, ?_⟩
            rw [hy]
            simp only [Except.ok.injEq]
            exact ⟨h4, h5⟩
        rw [ex]
        cases o' with
        | none =>
          dsimp only
          by_cases hc : l.2.2 ∈ ['ㄹ', 'ㅂ'] ∨ l.2.1 = 'ㅡ' ∧ l.2.2 = ' '
          · rw [if_pos hc]
            refine ⟨fun h => (by cases h), ?_⟩
            rintro ⟨h4, h5⟩
            rcases hc with hc | hc
            · obtain ⟨r, hr, _⟩ := h4 hc; cases hr
            · obtain ⟨r, hr, _⟩ := h5 hc; cases hr
          · rw [if_neg hc]
            exact ⟨fun _ => ⟨fun h => absurd (Or.inl h) hc, fun h => absurd (Or.inr h) hc⟩, fun _ => rfl⟩
        | some r =>
          dsimp only
          by_cases h1 : l.2.2 ∈ ['ㄹ', 'ㅂ'] ∧ r.1 ∈ ['ㄴ', 'ㄹ', 'ㅁ', 'ㅂ']
          · rw [if_pos h1]
            refine ⟨fun h => (by cases h), fun h => ?_⟩
            obtain ⟨r', e, hr'⟩ := h.1 h1.1
            cases e
            exact absurd h1.2 hr'
          · rw [if_neg h1]
            by_cases h2 : l.2.1 = 'ㅡ' ∧ l.2.2 = ' ' ∧ r.1 = 'ㅇ' ∧ (r.2.1 = 'ㅓ' ∨ r.2.1 = 'ㅏ')
            · rw [if_pos h2]
              refine ⟨fun h => (by cases h), fun h => ?_⟩
              obtain ⟨r', e, hr'⟩ := h.2 ⟨h2.1, h2.2.1⟩
              cases e
              exact absurd ⟨h2.2.2.1, by simpa using h2.2.2.2⟩ hr'
            · rw [if_neg h2]
              exact ⟨fun _ => ⟨fun h => ⟨r, rfl, fun h' => h1 ⟨h, h'⟩⟩, fun h => ⟨r, rfl, fun h' => h2 ⟨h.1, h.2, h'.1, by simpa using h'.2⟩⟩⟩, fun _ => rfl⟩

theorem joinUndefined_iff (stem eomi : Str) : (∃ e, checkSuffixPrefix stem eomi = .error e) ↔ JoinUndefined stem eomi := by
  unfold checkSuffixPrefix JoinUndefined
  cases hs : stem.getLast? with
  | none => simp [List.getLast?_eq_none_iff.1 hs]
  | some x =>
    have s0 : stem ≠ [] := by rintro rfl; cases hs
    cases he : eomi.head? with
    | none => simp [List.head?_eq_none_iff.1 he]
    | some y =>
      have e0 : eomi ≠ [] := by rintro rfl; cases he
      dsimp only
      obtain ⟨o, hx, kx⟩ := decompose_ok x
      obtain ⟨o', hy, ky⟩ := decompose_ok y
      rw [hx, hy]
      cases o with
      | none =>
        have := kx.1 rfl
        exact ⟨fun _ => Or.inr (Or.inr (Or.inl ⟨x, rfl, this⟩)), fun _ => ⟨_, rfl⟩⟩
      | some l =>
        have kx' : Spec.Korean x := by
          by_contra h; exact absurd (kx.2 h) (by simp)
        cases o' with
        | none =>
          have ky' := ky.1 rfl
          dsimp only
          by_cases hc : l.2.2 ∈ ['ㄹ', 'ㅂ'] ∨ l.2.1 = 'ㅡ' ∧ l.2.2 = ' '
          · rw [if_pos hc]
            exact ⟨fun _ => Or.inr (Or.inr (Or.inr ⟨x, y, l, rfl, rfl, ky', hx, hc⟩)), fun _ => ⟨_, rfl⟩⟩
          · rw [if_neg hc]
            refine ⟨fun ⟨e, h⟩ => (by cases h), ?_⟩
            rintro (h | h | ⟨x', h, h'⟩ | ⟨x', y', l', h1, h2, h3, h4, h5⟩)
            · exact absurd h s0
            · exact absurd h e0
            · cases h; exact absurd kx' h'
            · cases h1
              rw [hx] at h4
              cases h4
              exact absurd h5 hc
        | some r =>
          have ky' : Spec.Korean y := by
            by_contra h; exact absurd (ky.2 h) (by simp)
          constructor
          · rintro ⟨e, h⟩
            dsimp only at h
            split at h
            · cases h
            · split at h <;> cases h
          · rintro (h | h | ⟨x', h, h'⟩ | ⟨x', y', l', h1, h2, h3, h4, h5⟩)
            · exact absurd h s0
            · exact absurd h e0
            · cases h; exact absurd kx' h'
            · cases h2; exact absurd ky' h3

theorem filterM_error_iff {p : Str × Str → PyM Bool} {l : List (Str × Str)} : (∃ e, filterM p l = .error e) ↔ ∃ x ∈ l, ∃ e, p x = .error e := by
  constructor
  · rintro ⟨e, h⟩
    by_contra hn
    have : ∃ o, filterM p l = .ok o := filterM_ok (fun x hx => by
      cases hp : p x with
      | ok b => exact ⟨b, rfl⟩
      | error e => exact absurd ⟨x, hx, e, hp⟩ hn)
    obtain ⟨o, ho⟩ := this
    rw [ho] at h; cases h
  · rintro ⟨x, hx, e, he⟩
    cases hf : filterM p l with
    | error e => exact ⟨e, rfl⟩
    | ok o =>
      exfalso
      induction l generalizing o with
      | nil => cases hx
      | cons y l ih =>
        simp only [filterM] at hf
        cases hy : p y with
        | error e => rw [hy] at hf; cases hf
        | ok b =>
          rw [hy] at hf
          cases hg : filterM p l with
          | error e => rw [hg] at hf; cases hf
          | ok o' =>
            rcases List.mem_cons.1 hx with rfl | hx
            · rw [hy] at he; cases he
            · exact ih hx o' hg

/-- `compoundOf` raises exactly when the test is undefined for a lemma of the shortest reading -/
theorem compoundOf_error_iff {check : Str → Str → PyM Bool} {stems predicators : Str → Bool} {base : Dict Str Entry} {w : Str} {L : Str → Prop}
    (hL : ∀ x, predicators x = true ↔ L x) :
    (∃ e, compoundOf check stems predicators base w = .error e) ↔
      ∃ a b p, ShortestRead L (In base) w a b ∧ Dict.get? base b = some p ∧ ∃ q ∈ p.2, ∃ e, check (a ++ q.1) q.2 = .error e := by
  have hsr : ∀ a b, separateLR w predicators (fun r => Dict.has base r) = some (a, b) ↔ ShortestRead L (In base) w a b := by
    intro a b
    rw [separateLR_eq_iff]
    unfold ShortestRead
    have : ∀ l r, Reads (fun x => predicators x = true) (fun x => Dict.has base x = true) w l r ↔ Reads L (In base) w l r := by
      intro l r
      unfold Reads
      dsimp only
      rw [hL, Dict.isSome_get?_iff]
    simp only [this]
  unfold compoundOf
  cases hs : separateLR w predicators (fun r => Dict.has base r) with
  | none =>
    refine ⟨fun ⟨e, h⟩ => (by cases h), ?_⟩
    rintro ⟨a, b, p, hr, -⟩
    rw [(hsr a b).2 hr] at hs; cases hs
  | some lr =>
    obtain ⟨a, b⟩ := lr
    dsimp only
    have hr := (hsr a b).1 hs
    obtain ⟨p, hp⟩ := Option.isSome_iff_exists.1 ((Dict.isSome_get?_iff base b).2 hr.1.2.2.2.2)
    have hg : Dict.getD base b (0, []) = p := by rw [Dict.getD, hp]; rfl
    rw [hg]
    have key : (∃ e, filterM (fun l => check l.1 l.2) (p.2.map (fun l => (a ++ l.1, l.2))) = .error e) ↔ ∃ q ∈ p.2, ∃ e, check (a ++ q.1) q.2 = .error e := by
      rw [filterM_error_iff]
      constructor
      · rintro ⟨x, hx, e, he⟩
        obtain ⟨q, hq, rfl⟩ := List.mem_map.1 hx
        exact ⟨q, hq, e, he⟩
      · rintro ⟨q, hq, e, he⟩
        exact ⟨_, List.mem_map.2 ⟨q, hq, rfl⟩, e, he⟩
    constructor
    · rintro ⟨e, h⟩
      refine ⟨a, b, p, hr, hp, key.1 ?_⟩
      cases hf : filterM (fun l => check l.1 l.2) (p.2.map (fun l => (a ++ l.1, l.2))) with
      | error e => exact ⟨e, rfl⟩
      | ok o => rw [hf] at h; cases h
    · rintro ⟨a', b', p', hr', hp', hq⟩
      have := (hsr a' b').2 hr'
      rw [hs] at this
      cases this
      rw [hp] at hp'
      cases hp'
      obtain ⟨e, he⟩ := key.2 hq
      exact ⟨e, by rw [he]⟩

theorem parseCompounds_error_iff {check : Str → Str → PyM Bool} {stems predicators : Str → Bool} {base : Dict Str Entry} {R : Dict Str Nat} :
    (∃ e, parseCompounds check stems predicators base R = .error e) ↔
      ∃ w ∈ Dict.keys R, ∃ e, compoundOf check stems predicators base w = .error e := by
  induction R with
  | nil => simp [parseCompounds, Dict.keys]
  | cons x R ih =>
    obtain ⟨w, n⟩ := x
    simp only [parseCompounds, Dict.keys, List.map_cons, List.mem_cons, exists_eq_or_imp]
    cases hc : compoundOf check stems predicators base w with
    | error e => simp
    | ok o =>
      cases o with
      | none => simpa [Dict.keys] using ih
      | some ls =>
        cases hp : parseCompounds check stems predicators base R with
        | error e =>
          rw [hp] at ih
          simp only [Dict.keys] at ih
          obtain ⟨w', h1, h2⟩ := ih.1 ⟨e, rfl⟩
          exact ⟨fun _ => Or.inr ⟨w', h1, h2⟩, fun _ => ⟨e, rfl⟩⟩
        | ok m =>
          rw [hp] at ih
          simp only [Dict.keys] at ih
          have : ¬ ∃ w ∈ R.map (·.1), ∃ e, compoundOf check stems predicators base w = .error e := by
            rw [← ih]; rintro ⟨e, h⟩; cases h
          simp only [reduceCtorEq, exists_const, false_or, false_iff]
          exact this

theorem free_keys (s : State) (w : Str) : w ∈ Dict.keys (matchNounAndWord s (matchWord s)).eojeols ↔ Free s w := by
  rw [nounAndWord_eojeols, mem_keys_removeRecognized, (matchWord_keys s w).2.2.2]
  unfold Free; exact and_assoc

theorem mem_filterM_iff {p : Str × Str → PyM Bool} {l o : List (Str × Str)} (h : filterM p l = .ok o) (x : Str × Str) :
    x ∈ o ↔ x ∈ l ∧ p x = .ok true := by
  refine ⟨fun hx => mem_filterM h x hx, ?_⟩
  induction l generalizing o with
  | nil => simp
  | cons y l ih =>
    simp only [filterM] at h
    cases hb : p y with
    | error e => rw [hb] at h; cases h
    | ok b =>
      rw [hb] at h
      dsimp only at h
      cases ho : filterM p l with
      | error e => rw [ho] at h; cases h
      | ok o' =>
        rw [ho] at h
        cases h
        rintro ⟨hx, hp⟩
        rcases List.mem_cons.1 hx with rfl | hx
        · rw [hb] at hp; cases hp; simp
        · have := ih ho ⟨hx, hp⟩
          cases b <;> simp [this]

theorem compOf_some_check {check : Str → Str → PyM Bool} {stems predicators : Str → Bool} {base : Dict Str Entry} {w : Str} {ls : List (Str × Str)} {L : Str → Prop}
    (hL : ∀ x, predicators x = true ↔ L x) (h : compOf check stems predicators base w = some ls) :
    ∃ a b e, ShortestRead L (In base) w a b ∧ Dict.get? base b = some e ∧ ls ≠ [] ∧
      ∀ q, q ∈ ls ↔ ∃ stem, (stem, q.2) ∈ e.2 ∧ q.1 = a ++ stem ∧ check q.1 q.2 = .ok true ∧ stems q.1 = false := by
  unfold compOf at h
  cases hc : compoundOf check stems predicators base w with
  | error e => rw [hc] at h; cases h
  | ok o =>
    rw [hc] at h
    dsimp only at h
    subst h
    unfold compoundOf at hc
    cases hs : separateLR w predicators (fun r => Dict.has base r) with
    | none => rw [hs] at hc; cases hc
    | some lr =>
      obtain ⟨a, b⟩ := lr
      rw [hs] at hc
      dsimp only at hc
      have hR : ∀ x, Dict.has base x = true ↔ In base x := fun x => has_iff base x
      have hsr := separateLR_eq_iff.1 hs
      obtain ⟨_, _, _, _, h5⟩ := separateLR_some hs
      obtain ⟨e, he⟩ := Option.isSome_iff_exists.1 h5
      rw [Dict.getD, he] at hc
      dsimp only [Option.getD_some] at hc
      cases hf : filterM (fun l => check l.1 l.2) (e.2.map (fun l => (a ++ l.1, l.2))) with
      | error x => rw [hf] at hc; cases hc
      | ok o =>
        rw [hf] at hc
        dsimp only at hc
        split at hc
        · cases hc
        · rename_i hne
          cases hc
          refine ⟨a, b, e, ?_, he, hne, ?_⟩
          · unfold ShortestRead at hsr ⊢
            simp only [reads_congr hL hR] at hsr
            exact hsr
          · intro q
            rw [List.mem_filter, mem_filterM_iff hf, List.mem_map]
            simp only [Bool.not_eq_true']
            constructor
            · rintro ⟨⟨⟨y, hy, rfl⟩, h2⟩, h3⟩
              exact ⟨y.1, hy, rfl, h2, h3⟩
            · rintro ⟨stem, h1, h2, h3, h4⟩
              refine ⟨⟨⟨(stem, q.2), h1, ?_⟩, h3⟩, h4⟩
              rw [← h2]

theorem compOf_none_check {check : Str → Str → PyM Bool} {stems predicators : Str → Bool} {base : Dict Str Entry} {w : Str} {L : Str → Prop} (hL : ∀ x, predicators x = true ↔ L x)
    (h : compoundOf check stems predicators base w = .ok none) (a b : Str) (e : Entry) (hr : ShortestRead L (In base) w a b)
    (he : Dict.get? base b = some e) (stem eomi : Str) (hm : (stem, eomi) ∈ e.2) (hj : check (a ++ stem) eomi = .ok true) : stems (a ++ stem) = true := by
  have hR : ∀ x, Dict.has base x = true ↔ In base x := fun x => has_iff base x
  have hs : separateLR w predicators (fun r => Dict.has base r) = some (a, b) := by
    rw [separateLR_eq_iff]
    unfold ShortestRead at hr ⊢
    simp only [reads_congr hL hR]
    exact hr
  unfold compoundOf at h
  rw [hs] at h
  dsimp only at h
  rw [Dict.getD, he] at h
  dsimp only [Option.getD_some] at h
  cases hf : filterM (fun l => check l.1 l.2) (e.2.map (fun l => (a ++ l.1, l.2))) with
  | error x => rw [hf] at h; cases h
  | ok o =>
    rw [hf] at h
    dsimp only at h
    split at h
    · rename_i h0
      rw [List.filter_eq_nil_iff] at h0
      have := h0 (a ++ stem, eomi) ((mem_filterM_iff hf _).2 ⟨List.mem_map.2 ⟨_, hm, rfl⟩, hj⟩)
      simpa using this
    · cases h


theorem compOf_some {stems predicators : Str → Bool} {base : Dict Str Entry} {w : Str} {ls : List (Str × Str)} {L : Str → Prop}
    (hL : ∀ x, predicators x = true ↔ L x) (h : compOf checkSuffixPrefix stems predicators base w = some ls) :
    ∃ a b e, ShortestRead L (In base) w a b ∧ Dict.get? base b = some e ∧ ls ≠ [] ∧
      ∀ q, q ∈ ls ↔ ∃ stem, (stem, q.2) ∈ e.2 ∧ q.1 = a ++ stem ∧ Joinable q.1 q.2 ∧ stems q.1 = false := by
  obtain ⟨a, b, e, h1, h2, h3, h4⟩ := compOf_some_check hL h
  exact ⟨a, b, e, h1, h2, h3, fun q => by rw [h4 q, joinable_iff]⟩

theorem compOf_none {stems predicators : Str → Bool} {base : Dict Str Entry} {w : Str} {L : Str → Prop} (hL : ∀ x, predicators x = true ↔ L x)
    (h : compoundOf checkSuffixPrefix stems predicators base w = .ok none) (a b : Str) (e : Entry) (hr : ShortestRead L (In base) w a b)
    (he : Dict.get? base b = some e) (stem eomi : Str) (hm : (stem, eomi) ∈ e.2) (hj : Joinable (a ++ stem) eomi) : stems (a ++ stem) = true :=
  compOf_none_check hL h a b e hr he stem eomi hm ((joinable_iff _ _).2 hj)

end NewsPos
