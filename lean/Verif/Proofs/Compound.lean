import Verif.Proofs.NounV2
import Verif.Proofs.MaxScore
import Mathlib.Algebra.Order.Field.Rat
/-! Lemmas about the compound search of `LRNounExtractor_v2`. -/
namespace MaxScore
open Py

/-- every span carries the default score or its word's score -/
theorem recursive_score (scores : Dict Str Rat) (maxLength : Nat) (ds : Rat) (token : Str) (toks : List Tok)
    (h : recursiveTokenize scores maxLength ds token = .ok toks) : ∀ t ∈ toks, t.score = ds ∨ t.score = Dict.getD scores t.word ds := by
  unfold recursiveTokenize at h
  dsimp only at h
  split at h
  · have := Except.ok.inj h
    subst this
    intro t ht
    rw [List.mem_singleton] at ht
    subst ht; exact Or.inl rfl
  · generalize hR : find (initCands scores ds token (min maxLength token.length) token.length) = R at h
    have hRs : ∀ t ∈ R, t.score = ds ∨ t.score = Dict.getD scores t.word ds := by
      intro t ht
      rw [← hR] at ht
      unfold find initCands at ht
      have := mem_sorted.1 (findGo_subset _ _ t (mem_sorted.1 ht))
      exact Or.inr ((mem_candidates scores ds token _ t).1 this).2.2.2.2.1
    have hI : ∀ t ∈ addInter ds token R, t.score = ds ∨ t.score = Dict.getD scores t.word ds := by
      intro t ht
      unfold addInter at ht
      obtain ⟨⟨b, n⟩, _, he⟩ := List.mem_filterMap.1 ht
      dsimp only at he
      split at he
      · cases he
      · have := Option.some.inj he
        subst this; exact Or.inl rfl
    have hL : ∀ l, ∀ t ∈ addLast scores ds token l, t.score = ds ∨ t.score = Dict.getD scores t.word ds := by
      intro l t ht
      unfold addLast at ht
      rw [List.mem_singleton] at ht
      subst ht; exact Or.inr rfl
    have hF : ∀ l, ∀ t ∈ addFirst scores ds token l, t.score = ds ∨ t.score = Dict.getD scores t.word ds := by
      intro l t ht
      unfold addFirst at ht
      rw [List.mem_singleton] at ht
      subst ht; exact Or.inr rfl
    split at h
    · rename_i first last _ _
      have := Except.ok.inj h
      subst this
      intro t ht
      have ht := mem_sorted.1 ht
      rcases List.mem_append.1 ht with ht | ht
      · exact hRs t ht
      · have h1 : ∀ t ∈ (if last.e ≠ token.length then addInter ds token R ++ addLast scores ds token last else addInter ds token R),
            t.score = ds ∨ t.score = Dict.getD scores t.word ds := by
          intro t ht
          split at ht
          · rcases List.mem_append.1 ht with ht | ht
            · exact hI t ht
            · exact hL _ t ht
          · exact hI t ht
        split at ht
        · rcases List.mem_append.1 ht with ht | ht
          · exact h1 t ht
          · exact hF _ t ht
        · exact h1 t ht
    · cases h

end MaxScore

namespace V2
open Py Nested

/-- the parts a word is decomposed into, if any -/
def partsOf (pos : List Str) (scores : Dict Str Rat) (word : Str) : Option (List Str) :=
  match compoundParts pos scores word with
  | .ok (some (q :: qs)) => some (q :: qs)
  | _ => none

/-- the words that have parts, in order -/
def hits (pos : List Str) (scores : Dict Str Rat) (ws : List (Str × Int)) : List ((Str × Int) × List Str) :=
  ws.filterMap (fun w => (partsOf pos scores w.1).map (fun q => (w, q)))

def addHit (ps : Dict Str (Rat × Rat)) (a : Acc) (h : (Str × Int) × List Str) : Acc := addCompound ps a h.1.1 h.1.2 h.2

theorem compoundGo_eq (pos : List Str) (scores : Dict Str Rat) (ps : Dict Str (Rat × Rat)) (a : Acc) (ws : List (Str × Int))
    (h : ∀ w ∈ ws, ∃ o, compoundParts pos scores w.1 = .ok o) :
    compoundGo pos scores ps a ws = .ok ((hits pos scores ws).foldl (addHit ps) a) := by
  induction ws generalizing a with
  | nil => rfl
  | cons w ws ih =>
    obtain ⟨word, count⟩ := w
    obtain ⟨o, ho⟩ := h _ List.mem_cons_self
    have ih' := fun a => ih a (fun w hw => h w (List.mem_cons_of_mem _ hw))
    dsimp only at ho
    unfold compoundGo hits
    rw [List.filterMap_cons, ho]
    dsimp only
    match o, ho with
    | none, ho =>
      have hp : partsOf pos scores word = none := by unfold partsOf; rw [ho]
      rw [hp]
      exact ih' a
    | some [], ho =>
      have hp : partsOf pos scores word = none := by unfold partsOf; rw [ho]
      rw [hp]
      exact ih' a
    | some (q :: qs), ho =>
      have hp : partsOf pos scores word = some (q :: qs) := by unfold partsOf; rw [ho]
      rw [hp]
      exact ih' _

/-- the pair of conditions the collected tables satisfy -/
structure Collected (ps : Dict Str (Rat × Rat)) (hs : List ((Str × Int) × List Str)) (a : Acc) : Prop where
  wf : a.scores.WF
  cwf : a.components.WF
  keys : ∀ n, n ∈ Dict.keys a.scores ↔ ∃ h ∈ hs, h.2.flatten = n
  count : ∀ n, Dict.getD a.counts n 0 = ((hs.filter (fun h => decide (h.2.flatten = n))).map (fun h => h.1.2)).sum
  upper : ∀ n x, Dict.get? a.scores n = some x → 0 ≤ x ∧ ∀ h ∈ hs, h.2.flatten = n → ∀ q ∈ h.2, ((Dict.get? ps q).getD (0, 0)).2 ≤ x
  attained : ∀ n x, Dict.get? a.scores n = some x → x = 0 ∨ ∃ h ∈ hs, h.2.flatten = n ∧ ∃ q ∈ h.2, x = ((Dict.get? ps q).getD (0, 0)).2
  comp : ∀ n, n ∈ Dict.keys a.components ↔ n ∈ Dict.keys a.scores
  comp_of : ∀ n q, Dict.get? a.components n = some q → ∃ h ∈ hs, h.2 = q ∧ q.flatten = n

theorem maxRat_spec (x : Rat) (xs : List Rat) : maxRat (x :: xs) ∈ x :: xs ∧ ∀ y ∈ x :: xs, y ≤ maxRat (x :: xs) := by
  show xs.foldl (fun a b => if b > a then b else a) x ∈ _ ∧ ∀ y ∈ _, y ≤ xs.foldl (fun a b => if b > a then b else a) x
  induction xs generalizing x with
  | nil => simp
  | cons z xs ih =>
    rw [List.foldl_cons]
    obtain ⟨h1, h2⟩ := ih (if z > x then z else x)
    generalize xs.foldl (fun a b => if b > a then b else a) (if z > x then z else x) = M at *
    have hM := h2 _ List.mem_cons_self
    constructor
    · rcases List.mem_cons.1 h1 with h | h
      · rw [h]; split <;> simp
      · simp [h]
    · intro y hy
      rcases List.mem_cons.1 hy with rfl | hy
      · refine le_trans ?_ hM
        split
        · rename_i h; exact le_of_lt h
        · exact le_refl _
      · rcases List.mem_cons.1 hy with rfl | hy
        · refine le_trans ?_ hM
          split
          · exact le_refl _
          · rename_i h; exact not_lt.1 h
        · exact h2 y (List.mem_cons_of_mem _ hy)

theorem compoundScore_spec (ps : Dict Str (Rat × Rat)) (parts : List Str) (hne : parts ≠ []) :
    (∃ q ∈ parts, compoundScore ps parts = ((Dict.get? ps q).getD (0, 0)).2) ∧
    ∀ q ∈ parts, ((Dict.get? ps q).getD (0, 0)).2 ≤ compoundScore ps parts := by
  unfold compoundScore
  cases parts with
  | nil => exact absurd rfl hne
  | cons q qs =>
    rw [List.map_cons]
    obtain ⟨h1, h2⟩ := maxRat_spec (((Dict.get? ps q).getD (0, 0)).2) (qs.map (fun t => ((Dict.get? ps t).getD (0, 0)).2))
    constructor
    · rw [← List.map_cons (f := fun t => ((Dict.get? ps t).getD (0, 0)).2)] at h1
      obtain ⟨t, ht, he⟩ := List.mem_map.1 h1
      exact ⟨t, ht, he.symm⟩
    · intro t ht
      apply h2
      rw [← List.map_cons (f := fun t => ((Dict.get? ps t).getD (0, 0)).2)]
      exact List.mem_map_of_mem (f := fun t => ((Dict.get? ps t).getD (0, 0)).2) ht

theorem collected_step {ps : Dict Str (Rat × Rat)} {hs : List ((Str × Int) × List Str)} {a : Acc} (h : Collected ps hs a)
    (x : (Str × Int) × List Str) (hx : x.2 ≠ []) : Collected ps (hs ++ [x]) (addHit ps a x) := by
  obtain ⟨⟨w, c⟩, q⟩ := x
  obtain ⟨⟨q0, hq0, hq0e⟩, hmax⟩ := compoundScore_spec ps q hx
  dsimp only at *
  have hsc : (addHit ps a ((w, c), q)).scores = Dict.set a.scores q.flatten
    (if compoundScore ps q > Dict.getD a.scores q.flatten 0 then compoundScore ps q else Dict.getD a.scores q.flatten 0) := rfl
  have hct : (addHit ps a ((w, c), q)).counts = Dict.addI a.counts q.flatten c := rfl
  have hcm : (addHit ps a ((w, c), q)).components = Dict.set a.components q.flatten q := rfl
  refine ⟨?_, ?_, ?_, ?_, ?_, ?_, ?_, ?_⟩
  · rw [hsc]; exact h.wf.set _ _
  · rw [hcm]; exact h.cwf.set _ _
  · intro n
    rw [hsc, Dict.mem_keys_set, h.keys]
    simp only [List.mem_append, List.mem_singleton]
    constructor
    · rintro (rfl | ⟨y, hy, rfl⟩)
      · exact ⟨_, Or.inr rfl, rfl⟩
      · exact ⟨y, Or.inl hy, rfl⟩
    · rintro ⟨y, hy | rfl, rfl⟩
      · exact Or.inr ⟨y, hy, rfl⟩
      · exact Or.inl rfl
  · intro n
    rw [hct, Dict.getD_addI, h.count, List.filter_append, List.map_append, List.sum_append]
    congr 1
    by_cases hn : q.flatten = n <;> simp [hn]
  · intro n x hn
    rw [hsc, Dict.get?_set] at hn
    split at hn
    · rename_i hnn
      have := Option.some.inj hn
      have hold : 0 ≤ Dict.getD a.scores q.flatten 0 ∧ ∀ y ∈ hs, y.2.flatten = q.flatten → ∀ t ∈ y.2, ((Dict.get? ps t).getD (0, 0)).2 ≤ Dict.getD a.scores q.flatten 0 := by
        cases ho : Dict.get? a.scores q.flatten with
        | none =>
          have e0 : Dict.getD a.scores q.flatten 0 = 0 := by
            show (Dict.get? a.scores q.flatten).getD 0 = 0; rw [ho]; rfl
          rw [e0]
          refine ⟨le_refl _, ?_⟩
          intro y hy hyn
          rw [Dict.get?_eq_none_iff, h.keys] at ho
          exact absurd ⟨y, hy, hyn⟩ ho
        | some v =>
          have e0 : Dict.getD a.scores q.flatten 0 = v := by
            show (Dict.get? a.scores q.flatten).getD 0 = v; rw [ho]; rfl
          rw [e0]
          exact h.upper _ _ ho
      have hx1 : Dict.getD a.scores q.flatten 0 ≤ x ∧ compoundScore ps q ≤ x := by
        rw [← this]
        split
        · rename_i hgt; exact ⟨le_of_lt hgt, le_refl _⟩
        · rename_i hgt; exact ⟨le_refl _, not_lt.1 hgt⟩
      refine ⟨le_trans hold.1 hx1.1, ?_⟩
      intro y hy hyn t ht
      rcases List.mem_append.1 hy with hy | hy
      · exact le_trans (hold.2 y hy (hyn.trans hnn.symm) t ht) hx1.1
      · rw [List.mem_singleton] at hy
        subst hy
        exact le_trans (hmax t ht) hx1.2
    · rename_i hnn
      obtain ⟨h0, h1⟩ := h.upper _ _ hn
      refine ⟨h0, ?_⟩
      intro y hy hyn t ht
      rcases List.mem_append.1 hy with hy | hy
      · exact h1 y hy hyn t ht
      · rw [List.mem_singleton] at hy
        subst hy
        exact absurd hyn hnn
  · intro n x hn
    rw [hsc, Dict.get?_set] at hn
    split at hn
    · rename_i hnn
      have := Option.some.inj hn
      rw [← this]
      split
      · right
        exact ⟨_, List.mem_append_right _ List.mem_cons_self, hnn, q0, hq0, hq0e⟩
      · cases ho : Dict.get? a.scores q.flatten with
        | none =>
          left
          show (Dict.get? a.scores q.flatten).getD 0 = 0; rw [ho]; rfl
        | some v =>
          have e0 : Dict.getD a.scores q.flatten 0 = v := by
            show (Dict.get? a.scores q.flatten).getD 0 = v; rw [ho]; rfl
          rw [e0]
          rcases h.attained _ _ ho with h0 | ⟨y, hy, hyn, t, ht, hte⟩
          · exact Or.inl h0
          · exact Or.inr ⟨y, List.mem_append_left _ hy, hyn.trans hnn, t, ht, hte⟩
    · rcases h.attained _ _ hn with h0 | ⟨y, hy, hyn, t, ht, hte⟩
      · exact Or.inl h0
      · exact Or.inr ⟨y, List.mem_append_left _ hy, hyn, t, ht, hte⟩
  · intro n
    rw [hsc, hcm, Dict.mem_keys_set, Dict.mem_keys_set, h.comp]
  · intro n p hn
    rw [hcm, Dict.get?_set] at hn
    split at hn
    · rename_i hnn
      have := Option.some.inj hn
      subst this
      exact ⟨_, List.mem_append_right _ List.mem_cons_self, rfl, hnn⟩
    · obtain ⟨y, hy, h1, h2⟩ := h.comp_of _ _ hn
      exact ⟨y, List.mem_append_left _ hy, h1, h2⟩

theorem collected (ps : Dict Str (Rat × Rat)) (hs : List ((Str × Int) × List Str)) (hne : ∀ h ∈ hs, h.2 ≠ []) (cands : Dict Str Int) (g : LR.State) :
    Collected ps hs (hs.foldl (addHit ps) { candidates := cands, graph := g }) := by
  suffices H : ∀ (pre : List ((Str × Int) × List Str)) (a : Acc), Collected ps pre a → Collected ps (pre ++ hs) (hs.foldl (addHit ps) a) by
    have := H [] { candidates := cands, graph := g } ⟨Dict.wf_nil, Dict.wf_nil, by simp [Dict.keys], by simp [Dict.getD, Dict.get?], by simp [Dict.get?], by simp [Dict.get?], by simp [Dict.keys], by simp [Dict.get?]⟩
    simpa using this
  induction hs with
  | nil => intro pre a h; simpa using h
  | cons x hs ih =>
    intro pre a h
    rw [List.foldl_cons]
    have := ih (fun y hy => hne y (List.mem_cons_of_mem _ hy)) (pre ++ [x]) _ (collected_step h x (hne x List.mem_cons_self))
    simpa using this

theorem hits_ne (pos : List Str) (scores : Dict Str Rat) (ws : List (Str × Int)) : ∀ h ∈ hits pos scores ws, h.1 ∈ ws ∧ partsOf pos scores h.1.1 = some h.2 ∧ h.2 ≠ [] := by
  intro h hh
  unfold hits at hh
  obtain ⟨w, hw, he⟩ := List.mem_filterMap.1 hh
  cases hp : partsOf pos scores w.1 with
  | none => rw [hp] at he; cases he
  | some q =>
    rw [hp] at he
    have := Option.some.inj he
    subst this
    refine ⟨hw, hp, ?_⟩
    unfold partsOf at hp
    split at hp
    · have := Option.some.inj hp
      dsimp only
      rw [← this]; simp
    · cases hp

end V2
