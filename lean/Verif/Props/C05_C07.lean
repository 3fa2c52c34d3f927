import Verif.Proofs.Distance
import Verif.Proofs.Hangle
import Verif.Props.C01_C02
/-! C05, C06, C07: edit distances. -/
namespace Props
open Py Spec Distance
variable {α : Type} [DecidableEq α]

private theorem getCost_eq (cost : Dict (α × α) Rat) :
    getCost cost = diag (fun x y => Dict.getD cost (x, y) 1) := rfl

private theorem lev_least (a b : List α) : IsLeastCost unit a b (levenshtein a b []) := by
  have h : getCost ([] : Dict (α × α) Rat) = diag unit := rfl
  unfold levenshtein
  rw [h]
  split
  · exact least_swap (fun _ _ => rfl) (tableDistance_least unit b a)
  · exact tableDistance_least unit a b

/-- C05 (a): `levenshtein(a, b)` is the least number of single-character insertions, deletions and replacements
    that turn `a` into `b`. -/
theorem C05_least_edits (a b : List α) :
    ∃ n : Nat, levenshtein a b [] = n ∧ Edits n a b ∧ ∀ m, Edits m a b → n ≤ m := by
  have h := lev_least a b
  obtain ⟨n, hn, he⟩ := script_edits h.1
  refine ⟨n, hn, he, ?_⟩
  intro m hm
  obtain ⟨w, hw, hl⟩ := edits_script hm
  have := h.2 w hw
  rw [hn] at this
  exact_mod_cast le_trans this hl

/-- C05 (b): it is a metric, -/
theorem C05_metric (a b c : List α) :
    (levenshtein a b [] = 0 ↔ a = b) ∧ levenshtein a b [] = levenshtein b a [] ∧
    0 ≤ levenshtein a b [] ∧ levenshtein a c [] ≤ levenshtein a b [] + levenshtein b c [] := by
  refine ⟨⟨fun h => ?_, fun h => ?_⟩, ?_, ?_, ?_⟩
  · exact script_zero (by intros; simp [unit]) (lev_least a b).1 h
  · subst h
    exact le_antisymm ((lev_least a a).2 0 (script_self _ a))
      (script_nonneg (by intros; simp [unit]) (lev_least a a).1)
  · exact least_unique (lev_least a b) (least_swap (fun _ _ => rfl) (lev_least b a))
  · exact script_nonneg (by intros; simp [unit]) (lev_least a b).1
  · obtain ⟨v, hv, hl⟩ := script_trans (by intros; simp [unit]) (by intros; norm_num [unit])
      (lev_least a b).1 (lev_least b c).1
    exact le_trans ((lev_least a c).2 v hv) hl

/-- C05 (c): at least the length difference, at most the longer length. -/
theorem C05_bounds (a b : List α) :
    |(a.length : Rat) - b.length| ≤ levenshtein a b [] ∧ levenshtein a b [] ≤ (max a.length b.length : Nat) := by
  constructor
  · obtain ⟨h1, h2⟩ := script_length_le (by intros; simp [unit]) (lev_least a b).1
    exact abs_le.2 ⟨by linarith, h1⟩
  · obtain ⟨w, hw, hl⟩ := exists_script_le_max (sub := unit) (by intros; simp [unit]) a b
    exact le_trans ((lev_least a b).2 w hw) hl

example : levenshtein "가나다라".toList "나다마".toList [] = 2 := by decide +kernel

/-- C06: when the first argument is not the shorter one, the result is the least cost of a
    script whose substitutions are charged from the caller's table (1 where the table is silent).
    For `len(a) < len(b)` see `C06_cost_ignored_when_shorter`. -/
theorem C06_custom_cost (a b : List α) (cost : Dict (α × α) Rat) (h : b.length ≤ a.length) :
    IsLeastCost (fun x y => Dict.getD cost (x, y) 1) a b (levenshtein a b cost) := by
  unfold levenshtein
  rw [if_neg (by omega), getCost_eq]
  exact tableDistance_least _ a b

example : "가나".toList.length ≤ "나다".toList.length ∧ levenshtein "가나".toList "나나".toList [(('가', '나'), 1/2)] = 1/2 := by
  decide +kernel

/-- C06 is violated: when the first argument is shorter the caller's table has no influence at all, -/
theorem C06_cost_ignored_when_shorter (a b : List α) (cost : Dict (α × α) Rat) (h : a.length < b.length) :
    levenshtein a b cost = levenshtein a b [] := by
  unfold levenshtein
  rw [if_pos h, if_pos h]

/-- so the full statement of C06 fails for a concrete call. -/
theorem C06_violated :
    ¬ ∀ (a b : Str) (cost : Dict (Char × Char) Rat),
      IsLeastCost (fun x y => Dict.getD cost (x, y) 1) a b (levenshtein a b cost) := by
  intro h
  have h1 := h ['가'] ['나', '다'] [(('가', '나'), 1/2)]
  have h2 : levenshtein ['가'] ['나', '다'] [(('가', '나'), 1/2)] = 2 := by decide +kernel
  rw [h2] at h1
  have h3 : Script (fun x y => Dict.getD [(('가', '나'), (1/2 : Rat))] (x, y) 1) ['가'] ['나', '다'] (0 + 1 + 1/2) := by
    have := Script.subst (sub := fun x y => Dict.getD [(('가', '나'), (1/2 : Rat))] (x, y) 1) '가' '나' (by decide)
      (Script.insert '다' Script.done)
    exact this
  have := h1.2 _ h3
  norm_num at this

/-! ### C07 -/

private theorem decompose_eq_some_iff (c : Char) : Korean c → ∃ t, Hangle.decompose c = .ok (some t) := by
  intro h
  rcases h with h | h | h
  · obtain ⟨x, y, z, _, _, _, hd, _⟩ := Hangle.decompose_syllable h; exact ⟨_, hd⟩
  · exact ⟨_, Hangle.decompose_consonant h⟩
  · exact ⟨_, Hangle.decompose_vowel h⟩

private theorem triple_inj {s t : Char × Char × Char} (h : triple s = triple t) : s = t := by
  obtain ⟨a, b, c⟩ := s
  obtain ⟨a', b', c'⟩ := t
  simp [triple] at h ⊢; exact h

/-- the substitution cost in closed form -/
private theorem jamoCost_eq (x y : Char) (h : x ≠ y) :
    (∃ s t, Hangle.decompose x = .ok (some s) ∧ Hangle.decompose y = .ok (some t) ∧
      getJamoCost x y = levenshtein (triple s) (triple t) [] / 3) ∨
    ((¬ Korean x ∨ ¬ Korean y) ∧ getJamoCost x y = 1) := by
  by_cases hx : Korean x
  · by_cases hy : Korean y
    · obtain ⟨s, hs⟩ := decompose_eq_some_iff x hx
      obtain ⟨t, ht⟩ := decompose_eq_some_iff y hy
      exact Or.inl ⟨s, t, hs, ht, by simp [getJamoCost, h, hs, ht]⟩
    · obtain ⟨s, hs⟩ := decompose_eq_some_iff x hx
      exact Or.inr ⟨Or.inr hy, by simp [getJamoCost, h, hs, Hangle.decompose_nonkorean hy]⟩
  · exact Or.inr ⟨Or.inl hx, by simp [getJamoCost, h, Hangle.decompose_nonkorean hx]⟩

private theorem lev_triple_le (s t : Char × Char × Char) : levenshtein (triple s) (triple t) [] ≤ 3 := by
  have := (C05_bounds (triple s) (triple t)).2
  simpa [triple] using this

private theorem jamoCost_pos (x y : Char) (h : x ≠ y) : 0 < getJamoCost x y := by
  rcases jamoCost_eq x y h with ⟨s, t, hs, ht, e⟩ | ⟨_, e⟩
  · rw [e]
    have hm := C05_metric (triple s) (triple t) []
    have : levenshtein (triple s) (triple t) [] ≠ 0 := by
      intro h0
      have := triple_inj (hm.1.1 h0)
      subst this
      have kx : Korean x := by
        by_contra hk; rw [Hangle.decompose_nonkorean hk] at hs; cases hs
      have ky : Korean y := by
        by_contra hk; rw [Hangle.decompose_nonkorean hk] at ht; cases ht
      exact h (C02_decompose_injective x y kx ky (hs.trans ht.symm))
    have := lt_of_le_of_ne hm.2.2.1 (Ne.symm this)
    linarith
  · rw [e]; norm_num

private theorem jamoCost_le (x y : Char) (h : x ≠ y) : getJamoCost x y ≤ 1 := by
  rcases jamoCost_eq x y h with ⟨s, t, _, _, e⟩ | ⟨_, e⟩
  · rw [e]; have := lev_triple_le s t; linarith
  · rw [e]

private theorem jamoCost_symm (x y : Char) : getJamoCost x y = getJamoCost y x := by
  by_cases h : x = y
  · subst h; rfl
  · rcases jamoCost_eq x y h with ⟨s, t, hs, ht, e⟩ | ⟨hk, e⟩
    · rcases jamoCost_eq y x (Ne.symm h) with ⟨s', t', hs', ht', e'⟩ | ⟨hk', e'⟩
      · rw [hs'] at ht; rw [ht'] at hs; cases ht; cases hs
        rw [e, e', (C05_metric (triple s) (triple t) []).2.1]
      · exfalso
        rcases hk' with hk' | hk'
        · rw [Hangle.decompose_nonkorean hk'] at ht; cases ht
        · rw [Hangle.decompose_nonkorean hk'] at hs; cases hs
    · rcases jamoCost_eq y x (Ne.symm h) with ⟨s', t', hs', ht', e'⟩ | ⟨hk', e'⟩
      · exfalso
        rcases hk with hk | hk
        · rw [Hangle.decompose_nonkorean hk] at ht'; cases ht'
        · rw [Hangle.decompose_nonkorean hk] at hs'; cases hs'
      · rw [e, e']

private theorem jamoCost_trans (x y z : Char) (hxy : x ≠ y) (hyz : y ≠ z) (hxz : x ≠ z) :
    getJamoCost x z ≤ getJamoCost x y + getJamoCost y z := by
  have p1 := jamoCost_pos x y hxy
  have p2 := jamoCost_pos y z hyz
  have l := jamoCost_le x z hxz
  rcases jamoCost_eq x y hxy with ⟨s, t, hs, ht, e⟩ | ⟨hk, e⟩
  · rcases jamoCost_eq y z hyz with ⟨t', u, ht', hu, e'⟩ | ⟨hk, e'⟩
    · rw [ht] at ht'; cases ht'
      rcases jamoCost_eq x z hxz with ⟨s', u', hs', hu', e''⟩ | ⟨hk, e''⟩
      · rw [hs] at hs'; rw [hu] at hu'; cases hs'; cases hu'
        rw [e, e', e'']
        have := (C05_metric (triple s) (triple t) (triple u)).2.2.2
        linarith
      · exfalso
        rcases hk with hk | hk
        · rw [Hangle.decompose_nonkorean hk] at hs; cases hs
        · rw [Hangle.decompose_nonkorean hk] at hu; cases hu
    · rw [e']; linarith
  · rw [e]; linarith

private theorem jamoCost_diag : getJamoCost = diag getJamoCost := by
  funext x y
  by_cases h : x = y
  · simp [diag, h, getJamoCost]
  · simp [diag, h]

private theorem jamo_least (a b : Str) : IsLeastCost getJamoCost a b (jamoLevenshtein a b) := by
  unfold jamoLevenshtein
  rw [jamoCost_diag]
  split
  · have := least_swap jamoCost_symm (tableDistance_least getJamoCost b a)
    rw [← jamoCost_diag]; rwa [← jamoCost_diag] at this
  · have := tableDistance_least getJamoCost a b
    rw [← jamoCost_diag]; rwa [← jamoCost_diag] at this

/-- the price of replacing a character by another: between Korean characters a third of the least number of edits from the letters of the one to the letters of the
    other, otherwise 1 -/
structure JamoPrice (price : Char → Char → Rat) : Prop where
  korean : ∀ x y a1 a2 a3 b1 b2 b3, Hangle.decompose x = .ok (some (a1, a2, a3)) → Hangle.decompose y = .ok (some (b1, b2, b3)) →
    ∃ n : Nat, Edits n [a1, a2, a3] [b1, b2, b3] ∧ (∀ m, Edits m [a1, a2, a3] [b1, b2, b3] → n ≤ m) ∧ price x y = (n : Rat) / 3
  other : ∀ x y, ¬ Korean x ∨ ¬ Korean y → price x y = 1

/-- C07 (e): it is exactly the least cost of turning the one string into the other by insertions and deletions of price 1 and replacements at these prices,
    whichever of the two is longer -/
theorem C07_least (price : Char → Char → Rat) (h : JamoPrice price) (a b : Str) : IsLeastCost price a b (jamoLevenshtein a b) := by
  have e : ∀ x y, x ≠ y → getJamoCost x y = price x y := by
    intro x y hxy
    rcases jamoCost_eq x y hxy with ⟨⟨a1, a2, a3⟩, ⟨b1, b2, b3⟩, hs, ht, hc⟩ | ⟨hk, hc⟩
    · obtain ⟨n, h1, h2, h3⟩ := h.korean x y a1 a2 a3 b1 b2 b3 hs ht
      obtain ⟨n', e1, e2, e3⟩ := C05_least_edits [a1, a2, a3] [b1, b2, b3]
      have : n = n' := le_antisymm (h2 _ e2) (e3 _ h1)
      subst this
      rw [hc, h3]
      show levenshtein [a1, a2, a3] [b1, b2, b3] [] / 3 = _
      rw [e1]
    · rw [hc, h.other x y hk]
  have tr : ∀ {p q : Char → Char → Rat}, (∀ x y, x ≠ y → p x y = q x y) → ∀ {a b : Str} {w : Rat}, Script p a b w → Script q a b w := by
    intro p q hpq a b w hs
    induction hs with
    | done => exact .done
    | insert y _ ih => exact .insert y ih
    | delete x _ ih => exact .delete x ih
    | keep x _ ih => exact .keep x ih
    | subst x y hn _ ih => rw [hpq x y hn]; exact .subst x y hn ih
  have hl := jamo_least a b
  exact ⟨tr e hl.1, fun w hw => hl.2 w (tr (fun x y hn => (e x y hn).symm) hw)⟩

/-- the prices exist -/
theorem jamoPrice_getJamoCost : JamoPrice (fun x y => if x = y then (if Korean x then 0 else 1) else getJamoCost x y) := by
  constructor
  · intro x y a1 a2 a3 b1 b2 b3 hx hy
    obtain ⟨n, e1, e2, e3⟩ := C05_least_edits [a1, a2, a3] [b1, b2, b3]
    refine ⟨n, e2, e3, ?_⟩
    by_cases hxy : x = y
    · subst hxy
      rw [hx] at hy
      cases hy
      have : n = 0 := Nat.le_zero.1 (e3 0 (.refl _))
      have hk : Korean x := by
        refine Classical.byContradiction fun hk => ?_
        rw [Hangle.decompose_nonkorean hk] at hx
        cases hx
      simp [this, hk]
    · simp only [if_neg hxy]
      rw [← e1]
      simp [getJamoCost, hxy, hx, hy, triple]
  · intro x y hk
    by_cases hxy : x = y
    · subst hxy
      have : ¬ Korean x := by rcases hk with h | h <;> exact h
      simp [this]
    · simp only [if_neg hxy]
      rcases jamoCost_eq x y hxy with ⟨s, t, hs, ht, _⟩ | ⟨_, hc⟩
      · rcases hk with hk | hk
        · rw [Hangle.decompose_nonkorean hk] at hs; cases hs
        · rw [Hangle.decompose_nonkorean hk] at ht; cases ht
      · exact hc

/-- C07 (a): `jamo_levenshtein` is a metric on strings. -/
theorem C07_metric (a b c : Str) :
    (jamoLevenshtein a b = 0 ↔ a = b) ∧ jamoLevenshtein a b = jamoLevenshtein b a ∧
    0 ≤ jamoLevenshtein a b ∧ jamoLevenshtein a c ≤ jamoLevenshtein a b + jamoLevenshtein b c := by
  have nn : ∀ x y, x ≠ y → 0 ≤ getJamoCost x y := fun x y h => le_of_lt (jamoCost_pos x y h)
  refine ⟨⟨fun h => ?_, fun h => ?_⟩, ?_, ?_, ?_⟩
  · exact script_zero jamoCost_pos (jamo_least a b).1 h
  · subst h
    exact le_antisymm ((jamo_least a a).2 0 (script_self _ a)) (script_nonneg nn (jamo_least a a).1)
  · exact least_unique (jamo_least a b) (least_swap jamoCost_symm (jamo_least b a))
  · exact script_nonneg nn (jamo_least a b).1
  · obtain ⟨v, hv, hl⟩ := script_trans nn jamoCost_trans (jamo_least a b).1 (jamo_least b c).1
    exact le_trans ((jamo_least a c).2 v hv) hl

/-- C07 (b): it never exceeds `levenshtein`, -/
theorem C07_le_levenshtein (a b : Str) : jamoLevenshtein a b ≤ levenshtein a b [] := by
  obtain ⟨v, hv, hl⟩ := script_mono (sub := getJamoCost) (sub' := unit) jamoCost_le (lev_least a b).1
  exact le_trans ((jamo_least a b).2 v hv) hl

/-- the number of positions at which two decompositions differ -/
def jamoDiffer (s t : Char × Char × Char) : Nat :=
  (if s.1 = t.1 then 0 else 1) + (if s.2.1 = t.2.1 then 0 else 1) + (if s.2.2 = t.2.2 then 0 else 1)

private theorem lev_triple_hamming (s t : Char × Char × Char) :
    levenshtein (triple s) (triple t) [] ≤ jamoDiffer s t := by
  obtain ⟨a, b, c⟩ := s
  obtain ⟨a', b', c'⟩ := t
  have key : ∀ (x y : Char) (u v : List Char) (w : Rat), Script unit u v w →
      Script unit (x :: u) (y :: v) (w + (if x = y then 0 else 1)) := by
    intro x y u v w h
    by_cases hxy : x = y
    · subst hxy; simpa using Script.keep x h
    · simp only [if_neg hxy]; exact Script.subst x y hxy h
  have := key a a' _ _ _ (key b b' _ _ _ (key c c' _ _ _ Script.done))
  refine le_trans ((lev_least _ _).2 _ this) (le_of_eq ?_)
  simp only [jamoDiffer]; push_cast; ring

/-- C07 (c): replacing one Korean character by another anywhere costs at most a third per differing jamo
    position. -/
theorem C07_replace_cost (u v : Str) (x y : Char) (s t : Char × Char × Char)
    (hx : Hangle.decompose x = .ok (some s)) (hy : Hangle.decompose y = .ok (some t)) :
    jamoLevenshtein (u ++ x :: v) (u ++ y :: v) ≤ (jamoDiffer s t : Rat) / 3 := by
  by_cases h : x = y
  · subst h
    rw [((C07_metric _ _ []).1).2 rfl]
    positivity
  · have hs : Script getJamoCost (u ++ x :: v) (u ++ y :: v) (0 + (0 + getJamoCost x y)) :=
      script_append (script_self _ u) (Script.subst x y h (script_self _ v))
    refine le_trans ((jamo_least _ _).2 _ hs) ?_
    have : getJamoCost x y = levenshtein (triple s) (triple t) [] / 3 := by
      simp [getJamoCost, h, hx, hy]
    rw [this]
    have := lev_triple_hamming s t
    linarith

private theorem lev_triple_exact (a b c a' b' c' : Char) (h1 : b ≠ a') (h2 : b ≠ c') (h3 : a ≠ b') (h4 : c ≠ b') :
    levenshtein [a, b, c] [a', b', c'] [] = jamoDiffer (a, b, c) (a', b', c') := by
  simp only [levenshtein, tableDistance, outerRows, innerRow, getCost, jamoDiffer, List.length_cons, List.length_nil,
    List.range_succ, List.range_zero, List.map_cons, List.map_nil, List.nil_append,
    List.cons_append, h1, h2, h3, h4, if_false, Dict.getD, Dict.get?_nil, Option.getD_none, lt_irrefl,
    Nat.add_eq_zero_iff, List.getLastD]
  push_cast
  have two : ∀ (p : Prop) [Decidable p], (if p then (0 : Rat) else 1) = 0 ∨ (if p then (0 : Rat) else 1) = 1 := by
    intro p _; by_cases h : p <;> simp [h]
  have t1 := two (a = a'); have t2 := two (b = b'); have t3 := two (c = c')
  have t4 := two (a = c'); have t5 := two (c = a')
  generalize (if a = a' then (0 : Rat) else 1) = p1 at *
  generalize (if b = b' then (0 : Rat) else 1) = p2 at *
  generalize (if c = c' then (0 : Rat) else 1) = p3 at *
  generalize (if a = c' then (0 : Rat) else 1) = p4 at *
  generalize (if c = a' then (0 : Rat) else 1) = p5 at *
  clear two h1 h2 h3 h4
  rcases t1 with rfl | rfl <;> rcases t2 with rfl | rfl <;> rcases t3 with rfl | rfl <;>
    rcases t4 with rfl | rfl <;> rcases t5 with rfl | rfl <;> norm_num [List.getLast]

/-- C07 (d): between two one-syllable words the distance is exactly a third per differing jamo position. -/
theorem C07_syllables_exact (x y : Char) (s t : Char × Char × Char) (hx : Syllable x) (hy : Syllable y)
    (hs : Hangle.decompose x = .ok (some s)) (ht : Hangle.decompose y = .ok (some t)) :
    jamoLevenshtein [x] [y] = (jamoDiffer s t : Rat) / 3 := by
  by_cases h : x = y
  · subst h
    rw [((C07_metric _ _ []).1).2 rfl]
    rw [hs] at ht; cases ht
    simp [jamoDiffer]
  · obtain ⟨a, b, c, i, j, k, hd, ⟨ha, hb, hc⟩, _⟩ := Hangle.decompose_syllable hx
    obtain ⟨a', b', c', i', j', k', hd', ⟨ha', hb', hc'⟩, _⟩ := Hangle.decompose_syllable hy
    rw [hs] at hd; rw [ht] at hd'; cases hd; cases hd'
    have dj : ∀ n ∈ vowelJamo, n ∉ initialJamo ∧ n ∉ finalJamo := by decide
    have vb := dj _ (List.mem_of_getElem? hb)
    have vb' := dj _ (List.mem_of_getElem? hb')
    have cost : getJamoCost x y = (jamoDiffer (a, b, c) (a', b', c') : Rat) / 3 := by
      rw [← lev_triple_exact a b c a' b' c' ?_ ?_ ?_ ?_]
      · simp [getJamoCost, h, hs, ht, triple]
      · rintro rfl; exact vb.1 (List.mem_of_getElem? ha')
      · rintro rfl; exact vb.2 (List.mem_of_getElem? hc')
      · rintro rfl; exact vb'.1 (List.mem_of_getElem? ha)
      · rintro rfl; exact vb'.2 (List.mem_of_getElem? hc)
    have le := jamoCost_le x y h
    rw [← cost]
    simp only [jamoLevenshtein, tableDistance, outerRows, innerRow, List.length_cons, List.length_nil,
      List.range_succ, List.range_zero, List.map_cons, List.map_nil, List.nil_append,
      List.cons_append, lt_irrefl, if_false, List.getLastD]
    norm_num [List.getLast]
    linarith

example : jamoLevenshtein "한국어".toList "한극아".toList = 2/3 := by decide +kernel
example : Hangle.decompose '국' = .ok (some ('ㄱ', 'ㅜ', 'ㄱ')) ∧ Hangle.decompose '극' = .ok (some ('ㄱ', 'ㅡ', 'ㄱ')) := by
  decide +kernel

end Props
