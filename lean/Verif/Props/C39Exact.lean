import Verif.Props.C39
import Verif.Proofs.MaxLR
import Mathlib.Tactic.Linarith
import Mathlib.Data.List.Lex
/-! C39 continued: the order of the candidates, exactly which are selected, and in which order they are returned. -/
set_option linter.unusedSimpArgs false
set_option linter.unusedVariables false
namespace Props
open Py PT

/-! ### order of the candidates -/

/-- the L tags of a word, in the order in which the code enumerates them -/
def lTags (g : LRMatcher) (w : Str) : List Str := g.ord ((g.dictionary.getPos w).filter (fun t => decide (t ∈ g.ltags)))

/-- the number of the R tag among the templates of the L tag -/
def rIndex (g : LRMatcher) (w : LR) : Nat := ((Dict.getD g.templates (w.lTag.getD []) []).map some).idxOf w.rTag

/-- `x` is listed before `y`: by begin, then end of L, then L tag, then end of R, then R tag -/
def ListedFor (g : LRMatcher) (x y : LR) : Prop :=
  x.b < y.b ∨ x.b = y.b ∧ (x.m < y.m ∨ x.m = y.m ∧ (((lTags g x.l).map some).idxOf x.lTag < ((lTags g y.l).map some).idxOf y.lTag ∨
    x.lTag = y.lTag ∧ (x.e < y.e ∨ x.e = y.e ∧ rIndex g x < rIndex g y)))

private theorem idx_lt (l : List (Option Str)) (h : l.Nodup) : l.Pairwise (fun a b => l.idxOf a < l.idxOf b) := by
  rw [List.pairwise_iff_getElem]
  intro i j hi hj hij
  rw [h.idxOf_getElem i hi, h.idxOf_getElem j hj]
  omega

private theorem idx_lt' (l : List Str) (h : l.Nodup) : l.Pairwise (fun a b => (l.map some).idxOf (some a) < (l.map some).idxOf (some b)) := by
  have := idx_lt (l.map some) (h.map (fun a b h => Option.some.inj h))
  rwa [List.pairwise_map] at this

private theorem range'_lt (a n : Nat) : (List.range' a n).Pairwise (· < ·) := List.pairwise_lt_range'

private theorem initL_order (g : LRMatcher) (hd : DReach g.dictionary) (hord : ∀ l, (g.ord l).Perm l) (t : Str) :
    (initializeL g t).Pairwise (fun x y => x.2.2.1 < y.2.2.1 ∨ x.2.2.1 = y.2.2.1 ∧ (x.2.2.2 < y.2.2.2 ∨ x.2.2.2 = y.2.2.2 ∧ x.1 = y.1 ∧
      ((lTags g x.1).map some).idxOf (some x.2.1) < ((lTags g y.1).map some).idxOf (some y.2.1))) := by
  have key : ((List.range t.length).flatMap (fun b =>
      (List.range' (b + 2) (min t.length (b + g.dictionary.maxLength) + 1 - (b + 2))).flatMap (fun e =>
        (posL g (slice t b e)).map (fun tag => (slice t b e, tag, b, e))))).Pairwise (fun x y => x.2.2.1 < y.2.2.1 ∨ x.2.2.1 = y.2.2.1 ∧ (x.2.2.2 < y.2.2.2 ∨ x.2.2.2 = y.2.2.2 ∧ x.1 = y.1 ∧
      ((lTags g x.1).map some).idxOf (some x.2.1) < ((lTags g y.1).map some).idxOf (some y.2.1))) := by
    rw [List.pairwise_flatMap]
    constructor
    · intro b _
      rw [List.pairwise_flatMap]
      constructor
      · intro e _
        rw [List.pairwise_map]
        have hn : (posL g (slice t b e)).Nodup := by
          unfold posL
          exact (hord _).nodup_iff.2 ((C38_get_pos g.dictionary hd (slice t b e) []).1.filter _)
        refine (idx_lt' _ hn).imp ?_
        intro x y h
        exact .inr ⟨rfl, .inr ⟨rfl, rfl, h⟩⟩
      · refine (range'_lt _ _).imp ?_
        intro e e' hlt x hx y hy
        obtain ⟨_, _, rfl⟩ := List.mem_map.1 hx
        obtain ⟨_, _, rfl⟩ := List.mem_map.1 hy
        exact .inr ⟨rfl, .inl hlt⟩
    · refine List.pairwise_lt_range.imp ?_
      intro b b' hlt x hx y hy
      obtain ⟨_, _, hx⟩ := List.mem_flatMap.1 hx
      obtain ⟨_, _, hy⟩ := List.mem_flatMap.1 hy
      obtain ⟨_, _, rfl⟩ := List.mem_map.1 hx
      obtain ⟨_, _, rfl⟩ := List.mem_map.1 hy
      exact .inl hlt
  unfold initializeL
  rw [sorted_of_pairwise]
  · exact key
  · refine key.imp ?_
    intro x y h
    rw [decide_eq_true_iff]
    rcases h with h | h <;> omega

private theorem expand_mem (g : LRMatcher) (t : Str) (c : Str × Str × Nat × Nat) (w : LR) (h : w ∈ expandOne g t c) :
    w.l = c.1 ∧ w.lTag = some c.2.1 ∧ w.b = c.2.2.1 ∧ w.m = c.2.2.2 := by
  unfold expandOne at h
  obtain ⟨e2, _, h⟩ := List.mem_flatMap.1 h
  split at h
  · rw [List.mem_singleton] at h; subst h; exact ⟨rfl, rfl, rfl, rfl⟩
  · obtain ⟨_, _, rfl⟩ := List.mem_map.1 h; exact ⟨rfl, rfl, rfl, rfl⟩

/-- **C39** The candidates are listed by begin, then by the end of L, then by L tag (in the enumeration of the tag set), then by the end of R, then by the
    R tag in the order of the templates; in particular no candidate is listed twice. -/
theorem C39_generate_order (g : LRMatcher) (hd : DReach g.dictionary) (hord : ∀ l, (g.ord l).Perm l)
    (ht : ∀ t, (Dict.getD g.templates t []).Nodup) (token : Str) :
    (g.generate token).Pairwise (ListedFor g) ∧ (g.generate token).Nodup := by
  have key : ((initializeL g token).flatMap (expandOne g token)).Pairwise (ListedFor g) := by
    rw [List.pairwise_flatMap]
    constructor
    · rintro ⟨l, tag, b, m⟩ _
      unfold expandOne
      rw [List.pairwise_flatMap]
      constructor
      · intro e2 _
        dsimp only
        split
        · exact List.pairwise_singleton _ _
        · rw [List.pairwise_map]
          refine List.Pairwise.imp ?_ ((idx_lt' _ (ht tag)).sublist List.filter_sublist)
          intro x y h
          exact .inr ⟨rfl, .inr ⟨rfl, .inr ⟨rfl, .inr ⟨rfl, h⟩⟩⟩⟩
      · refine (range'_lt _ _).imp ?_
        intro e e' hlt x hx y hy
        have hx' : x.e = e ∧ x.b = b ∧ x.m = m ∧ x.lTag = some tag := by
          split at hx
          · rw [List.mem_singleton] at hx; subst hx; exact ⟨rfl, rfl, rfl, rfl⟩
          · obtain ⟨_, _, rfl⟩ := List.mem_map.1 hx; exact ⟨rfl, rfl, rfl, rfl⟩
        have hy' : y.e = e' ∧ y.b = b ∧ y.m = m ∧ y.lTag = some tag := by
          split at hy
          · rw [List.mem_singleton] at hy; subst hy; exact ⟨rfl, rfl, rfl, rfl⟩
          · obtain ⟨_, _, rfl⟩ := List.mem_map.1 hy; exact ⟨rfl, rfl, rfl, rfl⟩
        obtain ⟨a1, a2, a3, a4⟩ := hx'
        obtain ⟨b1, b2, b3, b4⟩ := hy'
        exact .inr ⟨by omega, .inr ⟨by omega, .inr ⟨by rw [a4, b4], .inl (by omega)⟩⟩⟩
    · refine (initL_order g hd hord token).imp ?_
      intro c c' h x hx y hy
      obtain ⟨a1, a2, a3, a4⟩ := expand_mem g token c x hx
      obtain ⟨b1, b2, b3, b4⟩ := expand_mem g token c' y hy
      unfold ListedFor
      rw [a1, a2, a3, a4, b1, b2, b3, b4]
      rcases h with h | ⟨h, h' | ⟨h', h'', h3⟩⟩
      · exact .inl h
      · exact .inr ⟨h, .inl h'⟩
      · exact .inr ⟨h, .inr ⟨h', .inl h3⟩⟩
  have hp : (g.generate token).Pairwise (ListedFor g) := by
    unfold LRMatcher.generate
    rw [sorted_of_pairwise]
    · exact key
    · refine key.imp ?_
      intro x y h
      rw [decide_eq_true_iff]
      rcases h with h | h <;> omega
  refine ⟨hp, hp.imp ?_⟩
  rintro x y h rfl
  unfold ListedFor at h
  omega

/-! ### selection -/

/-- `x` is considered before `y`: a higher score, or the same score and listed earlier -/
def Ahead (score : LR → Rat) (cands : List LR) (x y : LR) : Prop := score y < score x ∨ score x = score y ∧ cands.idxOf x < cands.idxOf y

private theorem ahead_asymm {score : LR → Rat} {cands : List LR} {x y : LR} (h : Ahead score cands x y) : ¬ Ahead score cands y x := by
  rintro h'
  rcases h with h | ⟨h, h2⟩ <;> rcases h' with h' | ⟨h', h2'⟩
  · linarith
  · linarith
  · linarith
  · omega

private theorem removeGo_exact (score : LR → Rat) (R : LR → LR → Prop) (hR : ∀ x y, R x y → ¬ R y x) : ∀ (fuel : Nat) (ss best : List LR), ss.length ≤ fuel →
    ss.Pairwise R → ∃ sel, removeGo fuel (ss.map (fun c => (c, score c))) best = best ++ sel ∧ sel.Sublist ss ∧
      ∀ x, x ∈ sel ↔ x ∈ ss ∧ ∀ y ∈ sel, R y x → Apart y x := by
  intro fuel
  induction fuel with
  | zero =>
    intro ss best h _
    have : ss = [] := List.length_eq_zero_iff.1 (by omega)
    subst this
    exact ⟨[], by simp [removeGo], .slnil, by simp⟩
  | succ fuel ih =>
    intro ss best h hp
    cases ss with
    | nil => exact ⟨[], by simp [removeGo], .slnil, by simp⟩
    | cons x rest =>
      rw [List.pairwise_cons] at hp
      have hlen : (rest.filter (fun c => !overlaps x c)).length ≤ fuel := by
        have := List.length_filter_le (fun c => !overlaps x c) rest
        simp at h; omega
      obtain ⟨sel, h1, h2, h3⟩ := ih (rest.filter (fun c => !overlaps x c)) (best ++ [x]) hlen (hp.2.sublist List.filter_sublist)
      have hapart : ∀ c, (!overlaps x c) = true ↔ Apart x c := by
        intro c
        unfold overlaps Apart
        rw [Bool.not_eq_true', Bool.and_eq_false_iff, decide_eq_false_iff_not, decide_eq_false_iff_not]
        omega
      refine ⟨x :: sel, ?_, ?_, ?_⟩
      · rw [List.map_cons, removeGo]
        have : ((rest.map (fun c => (c, score c))).filter (fun c => !overlaps x c.1)) = (rest.filter (fun c => !overlaps x c)).map (fun c => (c, score c)) := by
          rw [List.filter_map]; rfl
        rw [this, h1]; simp
      · exact (h2.trans List.filter_sublist).cons_cons x
      · have hsub : ∀ y ∈ sel, y ∈ rest ∧ Apart x y := by
          intro y hy
          obtain ⟨k1, k2⟩ := List.mem_filter.1 (h2.subset hy)
          exact ⟨k1, (hapart y).1 k2⟩
        intro z
        rw [List.mem_cons, List.mem_cons]
        constructor
        · rintro (rfl | hz)
          · refine ⟨.inl rfl, ?_⟩
            intro y hy hyz
            rcases List.mem_cons.1 hy with rfl | hy
            · exact absurd hyz (hR _ _ hyz)
            · exact absurd hyz (hR _ _ (hp.1 y (hsub y hy).1))
          · refine ⟨.inr (hsub z hz).1, ?_⟩
            intro y hy hyz
            rcases List.mem_cons.1 hy with rfl | hy
            · exact (hsub z hz).2
            · exact ((h3 z).1 hz).2 y hy hyz
        · rintro ⟨rfl | hz, hall⟩
          · exact .inl rfl
          · right
            refine (h3 z).2 ⟨List.mem_filter.2 ⟨hz, (hapart z).2 (hall x List.mem_cons_self (hp.1 z hz))⟩, ?_⟩
            intro y hy hyz
            exact hall y (List.mem_cons_of_mem _ hy) hyz

private theorem score_pre (score : LR → Rat) : TotalPre (fun x y : LR => decide (-score x ≤ -score y)) :=
  ⟨fun a b c h1 h2 => by simp only [decide_eq_true_eq] at *; exact le_trans h1 h2, fun a b => by simp only [decide_eq_true_eq]; exact le_total _ _⟩

/-- order of Python strings: by code points -/
def StrLt (a b : Str) : Prop := a.map Char.toNat < b.map Char.toNat

private theorem strLe_iff : ∀ a b : Str, strLe a b = true ↔ ¬ StrLt b a := by
  intro a
  induction a with
  | nil => intro b; simp [strLe, StrLt]
  | cons x a ih =>
    intro b
    cases b with
    | nil => simp [strLe, StrLt]
    | cons y b =>
      unfold strLe StrLt
      rw [List.map_cons, List.map_cons, List.cons_lt_cons_iff]
      by_cases h1 : x.toNat < y.toNat
      · rw [if_pos h1]
        simp
        constructor
        · omega
        · intro h; omega
      · rw [if_neg h1]
        by_cases h2 : y.toNat < x.toNat
        · rw [if_pos h2]; simp [h2]
        · rw [if_neg h2, ih b]
          have : x.toNat = y.toNat := by omega
          unfold StrLt
          simp [this]

private theorem strLt_trichotomy (a b : Str) (h : ¬ StrLt a b) (h' : ¬ StrLt b a) : a = b := by
  unfold StrLt at h h'
  have : a.map Char.toNat = b.map Char.toNat := le_antisymm (not_lt.1 h') (not_lt.1 h)
  exact (List.map_injective_iff.2 (fun x y h => Char.toNat_inj.1 h)) this

private theorem strLe_pre : TotalPre (fun x y : LR => strLe x.r y.r) := by
  constructor
  · intro a b c
    rw [strLe_iff, strLe_iff, strLe_iff]
    unfold StrLt
    rw [not_lt, not_lt, not_lt]
    exact le_trans
  · intro a b
    rw [strLe_iff, strLe_iff]
    unfold StrLt
    rw [not_lt, not_lt]
    exact le_total _ _

/-- **C39** Exactly which candidates are selected, for any evaluator: a candidate is selected if and only if it shares no character with any selected
    candidate considered before it — one with a higher score, or the same score and listed earlier. The selected words are returned ordered by the
    string `r`, those with the same `r` in the order in which they were considered. -/
theorem C39_selected (score : LR → Rat) (cands : List LR) (hn : cands.Nodup) :
    (∀ x, x ∈ selectBestLR score cands ↔ x ∈ cands ∧ ∀ y ∈ selectBestLR score cands, Ahead score cands y x → Apart y x) ∧
    (selectBestLR score cands).Pairwise (fun x y => StrLt x.r y.r ∨ x.r = y.r ∧ Ahead score cands x y) := by
  have hord : cands.Pairwise (fun x y => cands.idxOf x < cands.idxOf y) := by
    rw [List.pairwise_iff_getElem]
    intro i j hi hj hij
    rw [hn.idxOf_getElem i hi, hn.idxOf_getElem j hj]
    omega
  have hs := sorted_stable (score_pre score) hord
  have hss : (sorted (fun x y : LR => decide (-score x ≤ -score y)) cands).Pairwise (Ahead score cands) := by
    refine hs.imp ?_
    rintro x y ⟨h1, h2⟩
    rw [decide_eq_true_iff] at h1 h2
    by_cases h : score y < score x
    · exact .inl h
    · have : score x = score y := by linarith
      exact .inr ⟨this, h2 (by rw [this])⟩
  obtain ⟨sel, e1, e2, e3⟩ := removeGo_exact score (Ahead score cands) (fun _ _ => ahead_asymm) cands.length _ [] (by rw [length_sorted]) hss
  have hsel : selectBestLR score cands = sorted (fun x y => strLe x.r y.r) sel := by
    unfold selectBestLR removeOverlapped
    rw [sorted_map, List.length_map]
    dsimp only
    rw [e1, List.nil_append]
    exact sorted_of_pairwise (pairwise_sorted strLe_pre _)
  rw [hsel]
  constructor
  · intro x
    rw [mem_sorted, e3, mem_sorted]
    simp only [mem_sorted]
  · refine (sorted_stable strLe_pre (hss.sublist e2)).imp ?_
    rintro x y ⟨h1, h2⟩
    rw [strLe_iff] at h1 h2
    by_cases h : StrLt x.r y.r
    · exact .inl h
    · exact .inr ⟨strLt_trichotomy _ _ h h1, h2 h⟩

/-- the hypotheses hold for the default matcher and a dictionary with two tags; three candidates compete -/
example : ∃ s, create [("Noun".toList, ["아이".toList, "노래".toList, "이노".toList]), ("Josa".toList, ["는".toList])] = .ok s ∧
    (∀ t, (Dict.getD ({dictionary := s} : LRMatcher).templates t []).Nodup) ∧
    ((({dictionary := s} : LRMatcher).generate "아이노래는".toList).map (fun w => (w.b, w.m, w.e))) = [(0, 2, 2), (1, 3, 3), (2, 4, 4), (2, 4, 5)] ∧
    ((selectBestLR (evaluateLR {}) (({dictionary := s} : LRMatcher).generate "아이노래는".toList)).map (fun w => (w.b, w.m, w.e))) = [(0, 2, 2), (2, 4, 5)] := by
  refine ⟨_, rfl, ?_, by decide +kernel, by decide +kernel⟩
  intro t
  show (Dict.getD [("Noun".toList, ["Josa".toList, "Verb".toList, "Adjective".toList])] t []).Nodup
  rw [Dict.getD]
  by_cases h : t = "Noun".toList
  · subst h; decide +kernel
  · have : Dict.get? [("Noun".toList, ["Josa".toList, "Verb".toList, "Adjective".toList])] t = none := by
      rw [Dict.get?_eq_none_iff]
      intro hm
      simp [Dict.keys] at hm
      exact h hm
    rw [this]
    exact .nil

end Props
