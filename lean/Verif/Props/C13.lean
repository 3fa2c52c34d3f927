import Verif.Model.LTokenizer
import Verif.Proofs.Text
import Mathlib.Tactic.Linarith
import Mathlib.Data.List.Forall2
import Mathlib.Algebra.Order.Field.Rat
/-! C13: LTokenizer. -/
namespace Props
open Py LTok

theorem pyMax_spec (l : List Rat) (h : l ≠ []) : ∃ m, pyMax l = .ok m ∧ m ∈ l ∧ ∀ x ∈ l, x ≤ m := by
  have key : ∀ (xs : List Rat) (a : Rat),
      let m := xs.foldl (fun m y => if m < y then y else m) a
      (m = a ∨ m ∈ xs) ∧ a ≤ m ∧ ∀ x ∈ xs, x ≤ m := by
    intro xs
    induction xs with
    | nil => intro a; simp
    | cons y ys ih =>
      intro a
      simp only [List.foldl_cons]
      by_cases hlt : a < y
      · rw [if_pos hlt]
        obtain ⟨h1, h2, h3⟩ := ih y
        refine ⟨?_, hlt.le.trans h2, ?_⟩
        · rcases h1 with h1 | h1
          · right; simp only [h1]; simp
          · right; exact List.mem_cons_of_mem _ h1
        · intro x hx; rcases List.mem_cons.1 hx with rfl | hx
          · exact h2
          · exact h3 x hx
      · rw [if_neg hlt]
        obtain ⟨h1, h2, h3⟩ := ih a
        refine ⟨?_, h2, ?_⟩
        · rcases h1 with h1 | h1
          · exact Or.inl h1
          · right; exact List.mem_cons_of_mem _ h1
        · intro x hx; rcases List.mem_cons.1 hx with rfl | hx
          · exact (not_lt.1 hlt).trans h2
          · exact h3 x hx
  cases l with
  | nil => exact absurd rfl h
  | cons a xs =>
    obtain ⟨h1, h2, h3⟩ := key xs a
    refine ⟨_, rfl, ?_, ?_⟩
    · rcases h1 with h1 | h1
      · rw [h1]; simp
      · exact List.mem_cons_of_mem _ h1
    · intro x hx; rcases List.mem_cons.1 hx with rfl | hx
      · exact h2
      · exact h3 x hx

private theorem getItem_head {α : Type _} {l : List α} (h : l ≠ []) : ∃ a, getItem l 0 = .ok a ∧ l.head? = some a := by
  cases l with
  | nil => exact absurd rfl h
  | cons a l => exact ⟨a, rfl, rfl⟩

/-- The score the table gives to the prefix of length `e` (the default for unknown words). -/
def prefixScore (scores : Dict Str Rat) (ds : Rat) (token : Str) (e : Nat) : Rat :=
  (Dict.get? scores (token.take e)).getD ds

/-- C13 (a): an eojeol of at most two characters is returned whole; a longer one is cut at a place `e ≥ 2` whose
    prefix is within `max(tolerance, 0)` of the best prefix, and every longer prefix is worse than that. -/
theorem C13_best_left (scores : Dict Str Rat) (ds tol : Rat) (token : Str) :
    (token.length ≤ 2 → tokenToLr scores ds tol token = .ok (token, [])) ∧
    (2 < token.length → ∃ e, 2 ≤ e ∧ e ≤ token.length ∧
      tokenToLr scores ds tol token = .ok (token.take e, token.drop e) ∧
      (∀ e', 2 ≤ e' → e' ≤ token.length → prefixScore scores ds token e' ≤ prefixScore scores ds token e + max tol 0) ∧
      (∀ e', e < e' → e' ≤ token.length → ∃ e'', 2 ≤ e'' ∧ e'' ≤ token.length ∧
        prefixScore scores ds token e' + max tol 0 < prefixScore scores ds token e'')) := by
  constructor
  · intro h; simp [tokenToLr, h]
  · intro hlen
    have hrange : ∀ e, e ∈ List.range' 2 (token.length - 1) ↔ 2 ≤ e ∧ e ≤ token.length := by
      intro e; rw [List.mem_range'_1]; omega
    -- the candidate list
    let C : List Cand := ((List.range' 2 (token.length - 1)).map (fun e => (token.take e, token.drop e))).map
      (fun t => (Dict.getD scores t.1 ds, t.1, t.2))
    have hC : ∀ c, c ∈ C ↔ ∃ e, 2 ≤ e ∧ e ≤ token.length ∧ c = (prefixScore scores ds token e, token.take e, token.drop e) := by
      intro c
      simp only [C, List.map_map, List.mem_map, hrange, Function.comp, prefixScore, Dict.getD]
      constructor
      · rintro ⟨e, ⟨h1, h2⟩, rfl⟩; exact ⟨e, h1, h2, rfl⟩
      · rintro ⟨e, h1, h2, rfl⟩; exact ⟨e, ⟨h1, h2⟩, rfl⟩
    have hne : C ≠ [] := by
      have : (prefixScore scores ds token 2, token.take 2, token.drop 2) ∈ C := (hC _).2 ⟨2, le_refl _, by omega, rfl⟩
      exact List.ne_nil_of_mem this
    have hlenTake : ∀ e, e ≤ token.length → (token.take e).length = e := by
      intro e he; simp [he]
    by_cases ht : tol > 0
    · obtain ⟨m, hm, hm1, hm2⟩ := pyMax_spec (C.map (·.1)) (by simpa using hne)
      have hne2 : C.filter (fun c => m - c.1 ≤ tol) ≠ [] := by
        obtain ⟨c, hc, rfl⟩ := List.mem_map.1 hm1
        apply List.ne_nil_of_mem (a := c)
        simp only [List.mem_filter, hc, true_and, sub_self, decide_eq_true_eq]; exact ht.le
      have tp : TotalPre (fun x y : Cand => decide (y.2.1.length ≤ x.2.1.length)) :=
        ⟨fun a b c h1 h2 => by simp at *; omega, fun a b => by simp; omega⟩
      obtain ⟨best, hb1, hb2⟩ := getItem_head (sorted_ne_nil (le := fun x y : Cand => decide (y.2.1.length ≤ x.2.1.length)) hne2)
      obtain ⟨hb3, hb4⟩ := head_sorted tp hb2
      simp only [List.mem_filter, decide_eq_true_eq] at hb3
      obtain ⟨e, he1, he2, rfl⟩ := (hC best).1 hb3.1
      refine ⟨e, he1, he2, ?_, ?_, ?_⟩
      · have : ¬ token.length ≤ 2 := by omega
        simp only [tokenToLr, this, if_false, ht, if_true]
        change (do
          let best ← do
            let maxScore ← pyMax (C.map (·.1))
            getItem (sorted (fun x y => decide (y.2.1.length ≤ x.2.1.length)) (C.filter (fun c => maxScore - c.1 ≤ tol))) 0
          .ok (best.2.1, best.2.2) : PyM _) = _
        rw [hm]
        simp only [bind, Except.bind]
        rw [hb1]
      · intro e' h1 h2
        have : prefixScore scores ds token e' ≤ m := hm2 _ (List.mem_map.2 ⟨_, (hC _).2 ⟨e', h1, h2, rfl⟩, rfl⟩)
        have h3 := hb3.2
        simp only at h3
        rw [max_eq_left ht.le]; linarith
      · intro e' h1 h2
        obtain ⟨c, hc, hcm⟩ := List.mem_map.1 hm1
        obtain ⟨e'', h3, h4, rfl⟩ := (hC c).1 hc
        refine ⟨e'', h3, h4, ?_⟩
        by_contra hcon
        have hin : (prefixScore scores ds token e', token.take e', token.drop e') ∈ C.filter (fun c => m - c.1 ≤ tol) := by
          simp only [List.mem_filter, decide_eq_true_eq]
          refine ⟨(hC _).2 ⟨e', by omega, h2, rfl⟩, ?_⟩
          rw [max_eq_left ht.le] at hcon
          simp only at hcm
          rw [← hcm]; linarith
        have := hb4 _ hin
        simp only [decide_eq_true_eq, hlenTake e' h2, hlenTake e he2] at this
        omega
    · have tp : TotalPre (fun x y : Cand => decide (y.1 < x.1 ∨ (y.1 = x.1 ∧ y.2.1.length ≤ x.2.1.length))) := by
        refine ⟨fun a b c h1 h2 => ?_, fun a b => ?_⟩
        · simp only [decide_eq_true_eq] at *
          rcases h1 with h1 | ⟨h1, h1'⟩ <;> rcases h2 with h2 | ⟨h2, h2'⟩
          · exact Or.inl (h2.trans h1)
          · exact Or.inl (h2 ▸ h1)
          · exact Or.inl (h1 ▸ h2)
          · exact Or.inr ⟨h2.trans h1, by omega⟩
        · simp only [decide_eq_true_eq]
          rcases lt_trichotomy a.1 b.1 with h | h | h
          · exact Or.inr (Or.inl h)
          · rcases Nat.le_total a.2.1.length b.2.1.length with h' | h'
            · exact Or.inr (Or.inr ⟨h, h'⟩)
            · exact Or.inl (Or.inr ⟨h.symm, h'⟩)
          · exact Or.inl (Or.inl h)
      obtain ⟨best, hb1, hb2⟩ := getItem_head (sorted_ne_nil
        (le := fun x y : Cand => decide (y.1 < x.1 ∨ (y.1 = x.1 ∧ y.2.1.length ≤ x.2.1.length))) hne)
      obtain ⟨hb3, hb4⟩ := head_sorted tp hb2
      obtain ⟨e, he1, he2, rfl⟩ := (hC best).1 hb3
      have hmax : max tol 0 = 0 := max_eq_right (not_lt.1 ht)
      refine ⟨e, he1, he2, ?_, ?_, ?_⟩
      · have : ¬ token.length ≤ 2 := by omega
        simp only [tokenToLr, this, if_false, ht]
        change (do
          let best ← getItem (sorted (fun x y => decide (y.1 < x.1 ∨ (y.1 = x.1 ∧ y.2.1.length ≤ x.2.1.length))) C) 0
          .ok (best.2.1, best.2.2) : PyM _) = _
        rw [hb1]; rfl
      · intro e' h1 h2
        have := hb4 _ ((hC _).2 ⟨e', h1, h2, rfl⟩)
        simp only [decide_eq_true_eq] at this
        rw [hmax]
        rcases this with h | ⟨h, _⟩ <;> linarith
      · intro e' h1 h2
        have := hb4 _ ((hC _).2 ⟨e', by omega, h2, rfl⟩)
        simp only [decide_eq_true_eq, hlenTake e' h2, hlenTake e he2] at this
        refine ⟨e, he1, he2, ?_⟩
        rw [hmax]
        rcases this with h | ⟨h, h'⟩
        · linarith
        · omega

/-- specification: how an eojeol is to be cut. Short ones are not; otherwise the left part is the longest prefix of two or more characters whose score is
    within `max(tolerance, 0)` of the best such prefix -/
structure BestCut (scores : Dict Str Rat) (ds tol : Rat) (eojeol l r : Str) : Prop where
  whole : l ++ r = eojeol
  short : eojeol.length ≤ 2 → r = []
  two : 2 < eojeol.length → 2 ≤ l.length
  good : 2 < eojeol.length → ∀ a b, eojeol = a ++ b → 2 ≤ a.length → Dict.getD scores a ds ≤ Dict.getD scores l ds + max tol 0
  longest : 2 < eojeol.length → ∀ a b, eojeol = a ++ b → l.length < a.length →
    ∃ a' b', eojeol = a' ++ b' ∧ 2 ≤ a'.length ∧ Dict.getD scores a ds + max tol 0 < Dict.getD scores a' ds

private theorem lr_total (scores : Dict Str Rat) (ds tol : Rat) (token : Str) :
    ∃ l r, tokenToLr scores ds tol token = .ok (l, r) ∧ BestCut scores ds tol token l r := by
  by_cases h : token.length ≤ 2
  · exact ⟨_, _, (C13_best_left scores ds tol token).1 h, by simp, fun _ => rfl, fun h' => absurd h' (by omega), fun h' => absurd h' (by omega), fun h' => absurd h' (by omega)⟩
  · obtain ⟨e, h2, he, h1, hg, hl⟩ := (C13_best_left scores ds tol token).2 (by omega)
    have hle : (token.take e).length = e := by rw [List.length_take]; omega
    refine ⟨_, _, h1, by simp, fun h' => absurd h' h, fun _ => by omega, ?_, ?_⟩
    · rintro - a b rfl ha
      have := hg a.length ha (by simp)
      unfold prefixScore at this
      rwa [List.take_left'  rfl] at this
    · rintro - a b rfl ha
      obtain ⟨e'', q1, q2, q3⟩ := hl a.length (by omega) (by simp)
      unfold prefixScore at q3
      rw [List.take_left' rfl] at q3
      exact ⟨_, _, (List.take_append_drop e'' _).symm, by rw [List.length_take]; omega, q3⟩

/-- C13 (b): `tokenize` never raises; with flatten=False there is one pair per eojeol, the best cut of it, which concatenates to
    the eojeol. -/
theorem C13_pairs_lossless (scores : Dict Str Rat) (ds tol : Rat) (sentence : Str) :
    ∃ ps, tokenizePairs scores ds tol sentence = .ok ps ∧
      List.Forall₂ (fun eojeol p => BestCut scores ds tol eojeol p.1 p.2) (splitWs sentence) ps := by
  unfold tokenizePairs
  induction splitWs sentence with
  | nil => exact ⟨[], rfl, .nil⟩
  | cons w ws ih =>
    obtain ⟨ps, h1, h2⟩ := ih
    obtain ⟨l, r, h3, h4⟩ := lr_total scores ds tol w
    exact ⟨(l, r) :: ps, by simp [List.mapM_cons, h3, h1, bind, Except.bind, pure, Except.pure], .cons h4 h2⟩

/-- C13 (b): there is only one best cut, so (b) says what is returned -/
theorem C13_unique (scores : Dict Str Rat) (ds tol : Rat) (eojeol l r l' r' : Str) (h : BestCut scores ds tol eojeol l r)
    (h' : BestCut scores ds tol eojeol l' r') : l = l' ∧ r = r' := by
  apply List.append_inj (h.whole.trans h'.whole.symm)
  by_cases hs : eojeol.length ≤ 2
  · have a := congrArg List.length h.whole
    have b := congrArg List.length h'.whole
    rw [h.short hs] at a; rw [h'.short hs] at b
    simp at a b; omega
  · rcases Nat.lt_trichotomy l.length l'.length with hl | hl | hl
    · exfalso
      obtain ⟨a, b, q1, q2, q3⟩ := h.longest (by omega) l' r' h'.whole.symm hl
      have := h'.good (by omega) a b q1 q2
      linarith
    · exact hl
    · exfalso
      obtain ⟨a, b, q1, q2, q3⟩ := h'.longest (by omega) l r h.whole.symm hl
      have := h.good (by omega) a b q1 q2
      linarith

/-- C13 (c): with flatten=True the tokens are the left and right parts in order, without the empty ones, and they concatenate to the sentence without its
    whitespace. -/
theorem C13_flat_lossless (scores : Dict Str Rat) (ds tol : Rat) (sentence : Str) :
    ∃ (ps : List (Str × Str)) (ts : List Str), List.Forall₂ (fun eojeol p => BestCut scores ds tol eojeol p.1 p.2) (splitWs sentence) ps ∧
      tokenize scores ds tol sentence = .ok ts ∧ ts = (ps.map (fun p => if p.2 = [] then [p.1] else [p.1, p.2])).flatten ∧ (∀ t ∈ ts, t ≠ []) ∧
      ts.flatten = sentence.filter (fun c => c.toNat ∉ Spec.whitespace) := by
  obtain ⟨ps, h1, h2⟩ := C13_pairs_lossless scores ds tol sentence
  refine ⟨ps, ((ps.flatMap (fun t => [t.1, t.2])).filter (fun s => s ≠ [])), h2, by rw [tokenize, h1]; rfl, ?_, ?_, ?_⟩
  · clear h1
    have hne : ∀ w ∈ splitWs sentence, w ≠ [] := fun w hw => splitWs_nonempty hw
    generalize splitWs sentence = ws at h2 hne
    induction h2 with
    | nil => rfl
    | cons h _ ih =>
      rename_i a p l1 l2 _
      rw [List.flatMap_cons, List.filter_append, List.map_cons, List.flatten_cons, ih (fun w hw => hne w (by simp [hw]))]
      congr 1
      have h0 : p.1 ≠ [] := by
        intro h0
        by_cases hs : a.length ≤ 2
        · exact hne a (by simp) (by rw [← h.whole, h.short hs, h0]; rfl)
        · have := h.two (by omega); rw [h0] at this; simp at this
      by_cases h3 : p.2 = [] <;> simp [h0, h3]
  · intro t ht; simpa using (List.mem_filter.1 ht).2
  · have e : ((ps.flatMap (fun t => [t.1, t.2])).filter (fun s => s ≠ [])).flatten = (splitWs sentence).flatten := by
      clear h1
      generalize splitWs sentence = ws at h2
      induction h2 with
      | nil => rfl
      | cons h _ ih =>
        rename_i a p l1 l2 _
        simp only [List.flatMap_cons, List.filter_append, List.flatten_append, ih, List.flatten_cons, ← h.whole]
        congr 1
        obtain ⟨x, y⟩ := p
        cases x <;> cases y <;> simp
    rw [e, splitWs_flatten]
    apply List.filter_congr
    intro c _
    have := isSpace_iff c
    cases hs : isSpace c <;> simp_all

/-- C13 (d): with remove_r=True the output is the left parts of the best cuts, eojeol by eojeol. -/
theorem C13_remove_r (scores : Dict Str Rat) (ds tol : Rat) (sentence : Str) :
    ∃ ls, tokenizeL scores ds tol sentence = .ok ls ∧
      List.Forall₂ (fun eojeol l => ∃ r, BestCut scores ds tol eojeol l r) (splitWs sentence) ls := by
  obtain ⟨ps, h1, h2⟩ := C13_pairs_lossless scores ds tol sentence
  refine ⟨ps.map (·.1), by rw [tokenizeL, h1]; rfl, ?_⟩
  clear h1
  generalize splitWs sentence = ws at h2
  induction h2 with
  | nil => exact .nil
  | cons h _ ih => exact .cons ⟨_, h⟩ ih

example : tokenToLr [("파스".toList, 1/2), ("파스타".toList, 7/10)] 0 0 "파스타가".toList = .ok ("파스타".toList, "가".toList) := by
  decide +kernel
example : tokenToLr [("파스".toList, 1/2), ("파스타".toList, 7/10), ("파스타가".toList, 6/10)] 0 (1/5) "파스타가".toList
    = .ok ("파스타가".toList, []) := by decide +kernel

end Props
