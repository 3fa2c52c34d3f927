import Verif.Model.MaxScore
import Verif.Spec.Tiles
import Mathlib.Tactic.Linarith
import Mathlib.Algebra.Order.Field.Rat
/-! Lemmas for the max-score tokenizer. -/
namespace MaxScore
open Py Spec

/-- what a token says about itself -/
def Tok.span (t : Tok) : Str × Nat × Nat := (t.word, t.b, t.e)

theorem rank_totalPre : TotalPre rankLe := by
  refine ⟨fun a b c h1 h2 => ?_, fun a b => ?_⟩
  · simp only [rankLe, decide_eq_true_eq] at *
    rcases h1 with h1 | ⟨h1, h1'⟩ <;> rcases h2 with h2 | ⟨h2, h2'⟩
    · exact Or.inl (h2.trans h1)
    · exact Or.inl (h2 ▸ h1)
    · exact Or.inl (h1 ▸ h2)
    · exact Or.inr ⟨h2.trans h1, by omega⟩
  · simp only [rankLe, decide_eq_true_eq]
    rcases lt_trichotomy a.score b.score with h | h | h
    · exact Or.inr (Or.inl h)
    · have : (b.len < a.len ∨ (b.len = a.len ∧ a.b ≤ b.b)) ∨ (a.len < b.len ∨ (a.len = b.len ∧ b.b ≤ a.b)) := by omega
      rcases this with h' | h'
      · exact Or.inl (Or.inr ⟨h.symm, h'⟩)
      · exact Or.inr (Or.inr ⟨h, h'⟩)
    · exact Or.inl (Or.inl h)

theorem begin_totalPre : TotalPre beginLe := by
  refine ⟨fun a b c h1 h2 => ?_, fun a b => ?_⟩ <;> simp only [beginLe, decide_eq_true_eq] at * <;> omega

theorem overlaps_iff (c d : Tok) : overlaps c d = true ↔ d.b < c.e ∧ c.b < d.e := by
  simp [overlaps]

theorem mem_candidates (scores : Dict Str Rat) (ds : Rat) (token : Str) (rangeL : Nat) (t : Tok) :
    t ∈ candidates scores ds token rangeL token.length ↔
      t.b + 2 ≤ t.e ∧ t.e ≤ t.b + rangeL ∧ t.e ≤ token.length ∧ t.word = slice token t.b t.e ∧
      t.score = Dict.getD scores t.word ds ∧ t.len = t.e - t.b := by
  obtain ⟨w, b, e, s, n⟩ := t
  simp only [candidates, List.mem_flatMap, List.mem_range, List.mem_filterMap, List.mem_range'_1]
  constructor
  · rintro ⟨b', hb, r, hr, h⟩
    split at h
    · cases h
    · simp only [Option.some.injEq, Tok.mk.injEq] at h
      obtain ⟨rfl, rfl, rfl, rfl, rfl⟩ := h
      refine ⟨by omega, by omega, by omega, rfl, rfl, by omega⟩
  · rintro ⟨h1, h2, h3, h4, h5, h6⟩
    refine ⟨b, by omega, e - b, by omega, ?_⟩
    rw [if_neg (by omega)]
    have : b + (e - b) = e := by omega
    simp only [this, Option.some.injEq, Tok.mk.injEq, true_and]
    exact ⟨h4.symm, by rw [← h4, h5], h6.symm⟩

theorem findGo_subset (n : Nat) (l : List Tok) : ∀ c ∈ findGo n l, c ∈ l := by
  induction n generalizing l with
  | zero => simp [findGo]
  | succ n ih =>
    cases l with
    | nil => simp [findGo]
    | cons a l =>
      simp only [findGo]
      intro c hc
      rcases List.mem_cons.1 hc with rfl | hc
      · simp
      · exact List.mem_cons_of_mem _ (List.mem_filter.1 (ih _ c hc)).1

theorem findGo_disjoint (n : Nat) (l : List Tok) : (findGo n l).Pairwise (fun c d => overlaps c d = false) := by
  induction n generalizing l with
  | zero => simp [findGo]
  | succ n ih =>
    cases l with
    | nil => simp [findGo]
    | cons a l =>
      simp only [findGo]
      refine List.pairwise_cons.2 ⟨?_, ih _⟩
      intro c hc
      have := (List.mem_filter.1 (findGo_subset n _ c hc)).2
      simpa using this

theorem findGo_length (n : Nat) (l : List Tok) : (findGo n l).length ≤ n := by
  induction n generalizing l with
  | zero => simp [findGo]
  | succ n ih =>
    cases l with
    | nil => simp [findGo]
    | cons a l => simp only [findGo, List.length_cons]; have := ih (l.filter (fun d => !overlaps a d)); omega

/-- greedy: a candidate is taken, or lost to an earlier overlapping one, or the loop was cut off -/
theorem findGo_greedy (n : Nat) (l : List Tok) (R : Tok → Tok → Prop) (hR : l.Pairwise R) :
    ∀ c ∈ l, c ∈ findGo n l ∨ (∃ d ∈ findGo n l, overlaps d c = true ∧ R d c) ∨
      ((findGo n l).length = n ∧ ∀ d ∈ findGo n l, overlaps d c = false) := by
  induction n generalizing l with
  | zero => intro c _; right; right; simp [findGo]
  | succ n ih =>
    cases l with
    | nil => simp
    | cons a l =>
      rw [List.pairwise_cons] at hR
      simp only [findGo]
      intro c hc
      rcases List.mem_cons.1 hc with rfl | hc
      · left; simp
      · cases ho : overlaps a c
        · have hm : c ∈ l.filter (fun d => !overlaps a d) := List.mem_filter.2 ⟨hc, by simp [ho]⟩
          rcases ih _ (hR.2.sublist List.filter_sublist) c hm with h | ⟨d, h1, h2, h3⟩ | ⟨h1, h2⟩
          · left; exact List.mem_cons_of_mem _ h
          · right; left; exact ⟨d, List.mem_cons_of_mem _ h1, h2, h3⟩
          · right; right
            refine ⟨by simp [h1], ?_⟩
            intro d hd
            rcases List.mem_cons.1 hd with rfl | hd
            · exact ho
            · exact h2 d hd
        · right; left; exact ⟨a, by simp, ho, hR.1 c hc⟩

theorem findGo_ne_nil (n : Nat) (l : List Tok) (h : l ≠ []) : findGo (n + 1) l ≠ [] := by
  cases l with
  | nil => exact absurd rfl h
  | cons a l => simp [findGo]

/-- result in text order: each ends before the next begins -/
theorem find_chain (l : List Tok) (h : ∀ c ∈ l, c.b < c.e) : (find l).Pairwise (fun c d => c.e ≤ d.b) := by
  have h1 := pairwise_sorted begin_totalPre (findGo 101 l)
  have h2 : (find l).Pairwise (fun c d => overlaps c d = false) := by
    refine (List.Perm.pairwise_iff ?_ (sorted_perm beginLe (findGo 101 l))).2 (findGo_disjoint 101 l)
    intro x y hxy
    cases ho : overlaps y x
    · rfl
    · have := (overlaps_iff x y).2 ((overlaps_iff y x).1 ho).symm
      rw [hxy] at this; cases this
  have hb : ∀ c ∈ find l, c.b < c.e := fun c hc => h c (findGo_subset 101 l c (mem_sorted.1 hc))
  have h3 := (List.Pairwise.and h1 h2)
  refine List.Pairwise.imp_of_mem ?_ h3
  intro c d hc hd ⟨h4, h5⟩
  have : ¬ (d.b < c.e ∧ c.b < d.e) := fun h => by rw [(overlaps_iff c d).2 h] at h5; cases h5
  simp only [beginLe, decide_eq_true_eq] at h4
  have := hb c hc; have := hb d hd
  omega

/-! ### filling the gaps -/

/-- the token list with its inner gaps filled -/
def weave (ds : Rat) (token : Str) : List Tok → List Tok
  | [] => []
  | [a] => [a]
  | a :: b :: t => a :: ((if a.e = b.b then [] else [⟨slice token a.e b.b, a.e, b.b, ds, b.b - a.e⟩]) ++ weave ds token (b :: t))

theorem weave_perm (ds : Rat) (token : Str) (l : List Tok) : (weave ds token l).Perm (l ++ addInter ds token l) := by
  match l with
  | [] => exact .refl _
  | [a] => simp [weave, addInter]
  | a :: b :: t =>
    have ih := weave_perm ds token (b :: t)
    have e : addInter ds token (a :: b :: t) =
        (if a.e = b.b then [] else [⟨slice token a.e b.b, a.e, b.b, ds, b.b - a.e⟩]) ++ addInter ds token (b :: t) := by
      simp only [addInter, List.tail_cons, List.zip_cons_cons, List.filterMap_cons]
      split <;> split <;> simp_all
    rw [e]
    simp only [weave, List.cons_append]
    refine List.Perm.cons a ?_
    refine (List.Perm.append_left _ ih).trans ?_
    rw [← List.append_assoc, ← List.append_assoc]
    exact List.Perm.append_right _ List.perm_append_comm

theorem tiles_weave (ds : Rat) (token : Str) (a : Tok) (l : List Tok) (last : Tok) (hl : (a :: l).getLast? = some last)
    (hw : ∀ c ∈ a :: l, c.b < c.e ∧ c.e ≤ token.length ∧ c.word = slice token c.b c.e)
    (hc : (a :: l).Pairwise (fun c d => c.e ≤ d.b)) (tail : List Tok)
    (ht : Tiles token last.e token.length (tail.map Tok.span)) :
    Tiles token a.b token.length ((weave ds token (a :: l) ++ tail).map Tok.span) := by
  induction l generalizing a with
  | nil =>
    simp at hl; subst hl
    have := hw a (by simp)
    simp only [weave, List.singleton_append, List.map_cons]
    exact .cons this.1 this.2.1 this.2.2 ht
  | cons b t ih =>
    have hwa := hw a (by simp)
    rw [List.pairwise_cons] at hc
    have h1 := ih b (by simpa [List.getLast?_cons_cons] using hl) (fun c h => hw c (List.mem_cons_of_mem _ h)) hc.2
    have hab := hc.1 b (by simp)
    have hwb := hw b (by simp)
    simp only [weave, List.cons_append, List.map_cons, List.append_assoc, List.map_append]
    simp only [List.map_append] at h1
    refine .cons hwa.1 hwa.2.1 hwa.2.2 ?_
    split
    · rename_i he; rw [he]; simpa using h1
    · exact .cons (show a.e < b.b by omega) (show b.b ≤ token.length by omega) rfl (by simpa using h1)

theorem tiles_pairwise {token : Str} {i j : Nat} {l : List Tok} (h : Tiles token i j (l.map Tok.span)) :
    (∀ t ∈ l, i ≤ t.b ∧ t.b < t.e) ∧ l.Pairwise (fun c d => beginLe c d = true ∧ beginLe d c = false) := by
  induction l generalizing i with
  | nil => simp
  | cons a l ih =>
    rw [List.map_cons] at h
    cases h with
    | cons h1 h2 h3 h4 =>
      obtain ⟨ih1, ih2⟩ := ih h4
      refine ⟨?_, List.pairwise_cons.2 ⟨?_, ih2⟩⟩
      · intro t ht
        rcases List.mem_cons.1 ht with rfl | ht
        · exact ⟨Nat.le_refl _, h1⟩
        · have := ih1 t ht; change a.b < a.e at h1; exact ⟨by omega, this.2⟩
      · intro t ht
        have := ih1 t ht
        change a.b < a.e at h1
        simp only [beginLe, decide_eq_true_eq, decide_eq_false_iff_not]; omega

/-- the whole computation for a token of length at least three -/
theorem recursive_spec (scores : Dict Str Rat) (maxLength : Nat) (hm : 2 ≤ maxLength) (ds : Rat) (token : Str)
    (hl : 2 < token.length) :
    ∃ toks, recursiveTokenize scores maxLength ds token = .ok toks ∧
      Tiles token 0 token.length (toks.map Tok.span) ∧
      let R := find (initCands scores ds token (min maxLength token.length) token.length)
      (∀ t ∈ R, t ∈ toks) ∧
      (∀ t ∈ toks, t ∈ R ∨ ((∀ r ∈ R, r.e ≤ t.b ∨ t.e ≤ r.b) ∧ t.len = t.e - t.b ∧
        (t.b = 0 ∨ ∃ r ∈ R, r.e = t.b) ∧ (t.e = token.length ∨ ∃ r ∈ R, r.b = t.e) ∧
        t.score = if t.b = 0 ∨ t.e = token.length then Dict.getD scores (slice token t.b t.e) ds else ds)) := by
  have hcand : ∀ t ∈ initCands scores ds token (min maxLength token.length) token.length,
      t.b < t.e ∧ t.e ≤ token.length ∧ t.word = slice token t.b t.e := by
    intro t ht
    have := (mem_candidates scores ds token _ t).1 (mem_sorted.1 ht)
    exact ⟨by omega, this.2.2.1, this.2.2.2.1⟩
  have hne : initCands scores ds token (min maxLength token.length) token.length ≠ [] := by
    apply List.ne_nil_of_mem (a := (⟨slice token 0 2, 0, 2, Dict.getD scores (slice token 0 2) ds, 2⟩ : Tok))
    exact mem_sorted.2 ((mem_candidates scores ds token _ _).2 ⟨by simp, by simp; omega, by simp; omega, rfl, rfl, rfl⟩)
  generalize hI : initCands scores ds token (min maxLength token.length) token.length = I at *
  have hRne : find I ≠ [] := sorted_ne_nil (findGo_ne_nil 100 I hne)
  have hR : ∀ t ∈ find I, t.b < t.e ∧ t.e ≤ token.length ∧ t.word = slice token t.b t.e :=
    fun t ht => hcand t (findGo_subset 101 I t (mem_sorted.1 ht))
  have hchain := find_chain I (fun c hc => (hcand c hc).1)
  generalize hS : find I = S at *
  cases S with
  | nil => exact absurd rfl hRne
  | cons a S =>
    have hlast : ∃ last, (a :: S).getLast? = some last := ⟨_, List.getLast?_eq_some_getLast (by simp)⟩
    obtain ⟨last, hlast⟩ := hlast
    have hlm : last ∈ a :: S := List.mem_of_getLast? hlast
    let tail : List Tok := if last.e ≠ token.length then addLast scores ds token last else []
    let hd : List Tok := if a.b ≠ 0 then addFirst scores ds token a else []
    have htail : Tiles token last.e token.length (tail.map Tok.span) := by
      simp only [tail]
      split
      · rename_i he
        have := hR last hlm
        simp only [addLast, List.map_cons, List.map_nil, Tok.span]
        refine .cons (by omega) (Nat.le_refl _) (by simp) (.nil _)
      · rename_i he; simp at he; rw [he]; exact .nil _
    have htiles0 := tiles_weave ds token a S last hlast hR hchain tail htail
    have htiles : Tiles token 0 token.length ((hd ++ (weave ds token (a :: S) ++ tail)).map Tok.span) := by
      simp only [hd]
      split
      · rename_i he
        simp only [addFirst, List.cons_append, List.nil_append, List.map_cons, Tok.span]
        have := hR a (by simp)
        exact .cons (by omega) (by omega) rfl htiles0
      · rename_i he; simp at he; rw [he] at htiles0; simpa using htiles0
    have hperm : ((a :: S) ++ (let adds := addInter ds token (a :: S)
        let adds := if last.e ≠ token.length then adds ++ addLast scores ds token last else adds
        if a.b ≠ 0 then adds ++ addFirst scores ds token a else adds)).Perm
        (hd ++ (weave ds token (a :: S) ++ tail)) := by
      have e : (let adds := addInter ds token (a :: S)
        let adds := if last.e ≠ token.length then adds ++ addLast scores ds token last else adds
        if a.b ≠ 0 then adds ++ addFirst scores ds token a else adds) = addInter ds token (a :: S) ++ tail ++ hd := by
        simp only [tail, hd]
        split <;> split <;> simp
      rw [e, ← List.append_assoc, ← List.append_assoc]
      refine List.perm_append_comm.trans (List.Perm.append_left _ ?_)
      exact List.Perm.append_right _ (weave_perm ds token (a :: S)).symm
    have hsorted := sorted_eq_of_perm begin_totalPre hperm (tiles_pairwise htiles).2
    refine ⟨hd ++ (weave ds token (a :: S) ++ tail), ?_, htiles, ?_, ?_⟩
    · have : ¬ token.length ≤ 2 := by omega
      simp only [recursiveTokenize, this, if_false]
      rw [hI, hS, hlast]
      simp only [List.head?_cons]
      rw [← hsorted]
    · intro t ht
      exact hperm.mem_iff.1 (List.mem_append_left _ ht)
    · intro t ht
      by_cases htR : t ∈ a :: S
      · exact Or.inl htR
      · right
        have hdis := (tiles_pairwise htiles).2
        refine ⟨?_, ?_⟩
        · -- different members of the tiling do not overlap
          have key : ∀ (i j : Nat) (l : List Tok), Tiles token i j (l.map Tok.span) → ∀ x ∈ l, ∀ y ∈ l, x ≠ y → x.e ≤ y.b ∨ y.e ≤ x.b := by
            intro i j l
            induction l generalizing i with
            | nil => intro _ x hx; cases hx
            | cons c l ih =>
              intro h x hx y hy hxy
              rw [List.map_cons] at h
              cases h with
              | cons h1 h2 h3 h4 =>
                have h5 := (tiles_pairwise h4).1
                rcases List.mem_cons.1 hx with rfl | hx' <;> rcases List.mem_cons.1 hy with rfl | hy'
                · exact absurd rfl hxy
                · left; exact (h5 y hy').1
                · right; exact (h5 x hx').1
                · exact ih _ h4 x hx' y hy' hxy
          intro r hr
          have hr' : r ∈ hd ++ (weave ds token (a :: S) ++ tail) := hperm.mem_iff.1 (List.mem_append_left _ hr)
          have := key 0 _ _ htiles r hr' t ht (by rintro rfl; exact htR hr)
          exact this
        · have : t ∈ addInter ds token (a :: S) ++ tail ++ hd := by
            have h := hperm.mem_iff.2 ht
            rcases List.mem_append.1 h with h | h
            · exact absurd h htR
            · simp only [tail, hd]
              revert h
              split <;> split <;> simp
          rcases List.mem_append.1 this with h | h
          · rcases List.mem_append.1 h with h | h
            · simp only [addInter, List.mem_filterMap] at h
              obtain ⟨⟨p, q⟩, hpq, h⟩ := h
              have hp : p ∈ a :: S := (List.of_mem_zip hpq).1
              have hq : q ∈ a :: S := List.mem_of_mem_tail (List.of_mem_zip hpq).2
              have h1 := hR p hp
              have h2 := hR q hq
              split at h
              · cases h
              · cases h
                refine ⟨rfl, Or.inr ⟨p, hp, rfl⟩, Or.inr ⟨q, hq, rfl⟩, ?_⟩
                rw [if_neg]
                show ¬ (p.e = 0 ∨ q.b = token.length)
                omega
            · simp only [tail] at h
              split at h
              · simp only [addLast, List.mem_singleton] at h
                subst h
                have h1 := hR last hlm
                refine ⟨by simp, Or.inr ⟨last, hlm, rfl⟩, Or.inl rfl, ?_⟩
                simp [slice]
              · cases h
          · simp only [hd] at h
            split at h
            · simp only [addFirst, List.mem_singleton] at h
              subst h
              exact ⟨by simp, Or.inl rfl, Or.inr ⟨a, by simp, rfl⟩, by simp⟩
            · cases h

end MaxScore
