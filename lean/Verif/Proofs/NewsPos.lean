import Verif.Spec.PosTags
import Verif.Proofs.Lemmatizer
import Verif.Props.C14_C15
import Mathlib.Tactic.Linarith
/-! Lemmas about the POS extractors. -/
namespace NewsPos
open Py PosSpec

/-! ### mass -/

theorem mass_le {E : Dict Str Nat} {p q : Str → Bool} (h : ∀ e ∈ Dict.keys E, p e = true → q e = true) : mass E p ≤ mass E q := by
  unfold mass
  induction E with
  | nil => simp
  | cons x E ih =>
    have ih := ih (fun e he => h e (by simp only [Dict.keys, List.map_cons]; exact List.mem_cons_of_mem _ he))
    have hx := h x.1 (by simp [Dict.keys])
    simp only [List.filter_cons]
    by_cases hp : p x.1 = true
    · rw [if_pos hp, if_pos (hx hp)]; simp only [List.map_cons, List.sum_cons]; omega
    · rw [if_neg hp]; split
      · simp only [List.map_cons, List.sum_cons]; omega
      · exact ih

theorem mass_congr {E : Dict Str Nat} {p q : Str → Bool} (h : ∀ e ∈ Dict.keys E, p e = q e) : mass E p = mass E q :=
  Nat.le_antisymm (mass_le (fun e he hp => by rw [← h e he]; exact hp)) (mass_le (fun e he hp => by rw [h e he]; exact hp))

theorem mass_or {E : Dict Str Nat} {p q : Str → Bool} (h : ∀ e ∈ Dict.keys E, ¬ (p e = true ∧ q e = true)) :
    mass E (fun e => p e || q e) = mass E p + mass E q := by
  unfold mass
  induction E with
  | nil => simp
  | cons x E ih =>
    have ih := ih (fun e he => h e (by simp only [Dict.keys, List.map_cons]; exact List.mem_cons_of_mem _ he))
    have hx := h x.1 (by simp [Dict.keys])
    simp only [List.filter_cons]
    cases hp : p x.1 <;> cases hq : q x.1 <;> simp_all <;> omega

theorem mass_filter (E : Dict Str Nat) (p q : Str → Bool) : mass (E.filter (fun e => q e.1)) p = mass E (fun e => q e && p e) := by
  unfold mass
  rw [List.filter_filter]
  congr 2
  apply List.filter_congr
  intro x _
  rw [Bool.and_comm]

theorem mass_single {E : Dict Str Nat} (h : Dict.WF E) (w : Str) : mass E (fun e => decide (e = w)) = Dict.getD E w 0 := by
  unfold mass
  induction E with
  | nil => rfl
  | cons x E ih =>
    have ih := ih (h.sublist (List.sublist_cons_self _ _))
    obtain ⟨a, b⟩ := x
    simp only [Dict.WF, Dict.keys, List.map_cons, List.nodup_cons] at h
    simp only [List.filter_cons, Dict.getD, Dict.get?_cons]
    by_cases hw : a = w
    · subst hw
      have : (E.filter (fun e => decide (e.1 = a))) = [] := by
        rw [List.filter_eq_nil_iff]; intro e he
        have : e.1 ≠ a := by rintro rfl; exact h.1 (List.mem_map.2 ⟨e, he, rfl⟩)
        simpa using this
      simp only [decide_true, if_true, List.map_cons, this, List.map_nil, Option.getD_some, List.sum_cons, List.sum_nil]; omega
    · simp only [hw, decide_false, Bool.false_eq_true, if_false]; exact ih

/-! ### dictionaries -/

theorem has_iff {ν : Type} (d : Dict Str ν) (w : Str) : Dict.has d w = true ↔ w ∈ Dict.keys d := Dict.isSome_get?_iff d w

theorem has_eq_false {ν : Type} (d : Dict Str ν) (w : Str) : Dict.has d w = false ↔ w ∉ Dict.keys d := by
  rw [← has_iff]; simp

theorem mem_keys_filter {ν : Type} (d : Dict Str ν) (p : Str → Bool) (w : Str) :
    w ∈ Dict.keys (d.filter (fun e => p e.1)) ↔ w ∈ Dict.keys d ∧ p w = true := by
  simp only [Dict.keys, List.mem_map, List.mem_filter]
  constructor
  · rintro ⟨e, ⟨h1, h2⟩, rfl⟩; exact ⟨⟨e, h1, rfl⟩, h2⟩
  · rintro ⟨⟨e, h1, rfl⟩, h2⟩; exact ⟨e, ⟨h1, h2⟩, rfl⟩

theorem filter_has_self {ν : Type} (d : Dict Str ν) (p : Str → Bool) :
    d.filter (fun e => Dict.has (d.filter (fun e => p e.1)) e.1) = d.filter (fun e => p e.1) := by
  apply List.filter_congr
  intro e he
  rw [Bool.eq_iff_iff, has_iff, mem_keys_filter]
  exact ⟨fun h => h.2, fun h => ⟨List.mem_map.2 ⟨e, he, rfl⟩, h⟩⟩

theorem getD_cumulate (d : Dict Str Nat) (wc : List (Str × Nat)) (w : Str) :
    Dict.getD (cumulate d wc) w 0 = Dict.getD d w 0 + mass wc (fun e => decide (e = w)) :=
  Dict.getD_foldl_add wc (·.1) (·.2) d w

theorem wf_cumulate {d : Dict Str Nat} (h : Dict.WF d) (wc : List (Str × Nat)) : Dict.WF (cumulate d wc) :=
  Dict.WF.foldl_add wc (·.1) (·.2) h

theorem mem_keys_cumulate (d : Dict Str Nat) (wc : List (Str × Nat)) (w : Str) :
    w ∈ Dict.keys (cumulate d wc) ↔ w ∈ Dict.keys d ∨ w ∈ Dict.keys wc := by
  rw [cumulate, Dict.mem_keys_foldl_add wc (·.1) (·.2) d w]; simp [Dict.keys]

/-- the words that the eojeols of `R` contribute through `f` -/
def credit (R : Dict Str Nat) (f : Str → Option Str) : List (Str × Nat) := R.filterMap (fun e => (f e.1).map (fun w => (w, e.2)))

theorem mass_credit (R : Dict Str Nat) (f : Str → Option Str) (w : Str) :
    mass (credit R f) (fun e => decide (e = w)) = mass R (fun e => decide (f e = some w)) := by
  unfold mass credit
  induction R with
  | nil => rfl
  | cons x R ih =>
    simp only [List.filterMap_cons, List.filter_cons]
    cases hf : f x.1 with
    | none => simpa using ih
    | some v =>
      by_cases hv : v = w
      · subst hv; simpa using ih
      · simpa [hv] using ih

theorem mem_keys_credit (R : Dict Str Nat) (f : Str → Option Str) (w : Str) :
    w ∈ Dict.keys (credit R f) ↔ ∃ e ∈ Dict.keys R, f e = some w := by
  simp only [Dict.keys, credit, List.mem_map, List.mem_filterMap]
  constructor
  · rintro ⟨x, ⟨e, he, hx⟩, rfl⟩
    cases hf : f e.1 with
    | none => rw [hf] at hx; cases hx
    | some v => rw [hf] at hx; cases hx; exact ⟨e.1, ⟨e, he, rfl⟩, hf⟩
  · rintro ⟨_, ⟨e, he, rfl⟩, hf⟩
    exact ⟨(w, e.2), ⟨e, he, by rw [hf]; rfl⟩, rfl⟩

theorem getD_cumulate_dict (d : Dict Str Nat) {c : Dict Str Nat} (h : Dict.WF c) (w : Str) :
    Dict.getD (cumulate d c) w 0 = Dict.getD d w 0 + Dict.getD c w 0 := by
  rw [getD_cumulate, mass_single h]

theorem getD_of_has {d : Dict Str Nat} {w : Str} {n : Nat} (h : Dict.get? d w = some n) : Dict.getD d w 0 = n := by simp [Dict.getD, h]

theorem get?_of_has {ν : Type} {d : Dict Str ν} {w : Str} (h : w ∈ Dict.keys d) : ∃ n, Dict.get? d w = some n := by
  have := (Dict.isSome_get?_iff d w).2 h
  exact Option.isSome_iff_exists.1 this

/-- the entries that a partial lemmatisation gives to the eojeols of `R` -/
def entriesOf (R : Dict Str Nat) (comp : Str → Option (List (Str × Str))) : Dict Str Entry :=
  R.filterMap (fun e => (comp e.1).map (fun ls => (e.1, (e.2, ls))))

theorem countsOf_entries (R : Dict Str Nat) (comp : Str → Option (List (Str × Str))) :
    countsOf (entriesOf R comp) = R.filter (fun e => (comp e.1).isSome) := by
  unfold countsOf entriesOf
  induction R with
  | nil => rfl
  | cons x R ih =>
    simp only [List.filterMap_cons, List.filter_cons]
    cases comp x.1 <;> simp [ih]

theorem keys_entries (R : Dict Str Nat) (comp : Str → Option (List (Str × Str))) :
    Dict.keys (entriesOf R comp) = Dict.keys (R.filter (fun e => (comp e.1).isSome)) := by
  rw [← countsOf_entries]; simp [Dict.keys, countsOf]

theorem mem_keys_entries (R : Dict Str Nat) (comp : Str → Option (List (Str × Str))) (w : Str) :
    w ∈ Dict.keys (entriesOf R comp) ↔ w ∈ Dict.keys R ∧ (comp w).isSome = true := by
  rw [keys_entries, mem_keys_filter R (fun w => (comp w).isSome)]

theorem wf_entries {R : Dict Str Nat} (h : Dict.WF R) (comp : Str → Option (List (Str × Str))) : Dict.WF (entriesOf R comp) := by
  unfold Dict.WF; rw [keys_entries]; exact h.filter _

theorem get?_entries {R : Dict Str Nat} (h : Dict.WF R) (comp : Str → Option (List (Str × Str))) (w : Str) :
    Dict.get? (entriesOf R comp) w = (Dict.get? R w).bind (fun n => (comp w).map (fun ls => (n, ls))) := by
  unfold entriesOf
  induction R with
  | nil => rfl
  | cons x R ih =>
    have ih := ih (h.sublist (List.sublist_cons_self _ _))
    obtain ⟨a, b⟩ := x
    simp only [Dict.WF, Dict.keys, List.map_cons, List.nodup_cons] at h
    simp only [List.filterMap_cons, Dict.get?_cons]
    by_cases hw : a = w
    · subst hw
      have hn : Dict.get? R a = none := (Dict.get?_eq_none_iff _ _).2 h.1
      rw [hn] at ih
      cases hc : comp a with
      | none => simpa using ih
      | some ls => simp [Dict.get?_cons]
    · rw [if_neg hw]
      cases hc : comp a with
      | none => simpa using ih
      | some ls => simp only [Option.map_some, Dict.get?_cons, if_neg hw]; exact ih

theorem get?_update (d e : Dict Str Entry) (he : Dict.WF e) (w : Str) :
    Dict.get? (update d e) w = (Dict.get? e w).or (Dict.get? d w) := by
  unfold update
  induction e generalizing d with
  | nil => simp
  | cons x e ih =>
    obtain ⟨a, b⟩ := x
    have he' := he.sublist (List.sublist_cons_self _ _)
    simp only [Dict.WF, Dict.keys, List.map_cons, List.nodup_cons] at he
    rw [List.foldl_cons, ih _ he', Dict.get?_set, Dict.get?_cons]
    by_cases hw : a = w
    · subst hw
      have hn : Dict.get? e a = none := (Dict.get?_eq_none_iff _ _).2 he.1
      simp [hn]
    · simp [hw]

theorem mem_keys_update (d e : Dict Str Entry) (w : Str) : w ∈ Dict.keys (update d e) ↔ w ∈ Dict.keys d ∨ w ∈ Dict.keys e := by
  unfold update
  induction e generalizing d with
  | nil => simp
  | cons x e ih =>
    rw [List.foldl_cons, ih, Dict.mem_keys_set]
    simp only [Dict.keys, List.map_cons, List.mem_cons]
    exact ⟨fun h => by rcases h with (h | h) | h <;> simp [h], fun h => by rcases h with h | h | h <;> simp [h]⟩

theorem wf_update {d e : Dict Str Entry} (h : Dict.WF d) : Dict.WF (update d e) := by
  unfold update
  induction e generalizing d with
  | nil => exact h
  | cons x e ih => exact ih (h.set _ _)

/-! ### separation and lemmatisation of one word -/

theorem separateLR_some {w : Str} {L R : Str → Bool} {lr : Str × Str} (h : separateLR w L R = some lr) :
    w = lr.1 ++ lr.2 ∧ 2 ≤ lr.1.length ∧ lr.2 ≠ [] ∧ L lr.1 = true ∧ R lr.2 = true := by
  unfold separateLR at h
  obtain ⟨i, hi, hv⟩ := List.exists_of_findSome?_eq_some h
  simp only [List.mem_range'_1] at hi
  split at hv
  · rename_i hc
    cases hv
    rw [Bool.and_eq_true] at hc
    refine ⟨(List.take_append_drop _ _).symm, by simp; omega, ?_, hc.1, hc.2⟩
    intro h0
    have := congrArg List.length h0
    simp at this; omega
  · cases hv

theorem separateLR_none {w : Str} {L R : Str → Bool} :
    separateLR w L R = none ↔ ¬ ∃ l r, Reads (fun x => L x = true) (fun x => R x = true) w l r := by
  unfold separateLR
  rw [List.findSome?_eq_none_iff]
  constructor
  · rintro h ⟨l, r, rfl, h2, h3, h4, h5⟩
    have := h l.length (by
      simp only [List.mem_range'_1, List.length_append]
      have := List.length_pos_iff.2 h3; omega)
    simp [h4, h5] at this
  · intro h i hi
    simp only [List.mem_range'_1] at hi
    rw [if_neg]
    intro hc
    rw [Bool.and_eq_true] at hc
    refine h ⟨w.take i, w.drop i, (List.take_append_drop _ _).symm, by simp; omega, ?_, hc.1, hc.2⟩
    intro h0
    have := congrArg List.length h0
    simp at this; omega

theorem separateLR_isSome {w : Str} {L R : Str → Bool} :
    (separateLR w L R).isSome = true ↔ ∃ l r, Reads (fun x => L x = true) (fun x => R x = true) w l r := by
  have := @separateLR_none w L R
  cases h : separateLR w L R with
  | none => simp only [h, true_iff] at this; simp only [Option.isSome_none, Bool.false_eq_true, false_iff]; exact this
  | some x =>
    rw [h] at this
    simp only [reduceCtorEq, false_iff, not_not] at this
    simp only [Option.isSome_some, true_iff]; exact this

/-- the shortest left part is chosen -/
theorem separateLR_shortest {w : Str} {L R : Str → Bool} {lr : Str × Str} (h : separateLR w L R = some lr) (l r : Str)
    (hr : Reads (fun x => L x = true) (fun x => R x = true) w l r) : lr.1.length ≤ l.length := by
  unfold separateLR at h
  rw [List.findSome?_eq_some_iff] at h
  obtain ⟨l1, i, l2, e, hi, hb⟩ := h
  split at hi
  · cases hi
    by_contra hlt
    obtain ⟨rfl, h2, h3, h4, h5⟩ := hr
    have hlen : i ≤ (l ++ r).length := by
      have : i ∈ List.range' 2 ((l ++ r).length - 2) := by rw [e]; simp
      simp only [List.mem_range'_1] at this; omega
    have hlt : l.length < i := by simp at hlt; omega
    have hmem : l.length ∈ l1 := by
      have hm : l.length ∈ List.range' 2 ((l ++ r).length - 2) := by
        simp only [List.mem_range'_1, List.length_append]
        have := List.length_pos_iff.2 h3; omega
      have hs : (List.range' 2 ((l ++ r).length - 2)).Pairwise (· < ·) := List.pairwise_lt_range'
      rw [e] at hm hs
      rcases List.mem_append.1 hm with hm | hm
      · exact hm
      · exfalso
        rcases List.mem_cons.1 hm with hm | hm
        · omega
        · have := (List.pairwise_append.1 hs).2.1
          rw [List.pairwise_cons] at this
          have := this.1 _ hm
          omega
    have := hb _ hmem
    simp [h4, h5] at this
  · cases hi

theorem lemmatize_some {stems eomis : List Str} {w : Str} {ls : List (Str × Str)} (h : lemmatize stems eomis w = some ls) :
    KnownLemmas stems eomis w ls := by
  unfold lemmatize at h
  have hpw : List.Pairwise (fun a b => b < a) (List.range' 1 (w.length + 1)).reverse := by
    rw [List.pairwise_reverse]; exact List.pairwise_lt_range'
  obtain ⟨pre, i, post, hsplit, hv, hpre⟩ := List.findSome?_eq_some_iff.1 h
  have himem : i ∈ (List.range' 1 (w.length + 1)).reverse := by rw [hsplit]; simp
  rw [List.mem_reverse, List.mem_range'_1] at himem
  cases hl : Lemma.lemmaCandidate (w.take i) (w.drop i) with
  | error e => rw [hl] at hv; cases hv
  | ok out =>
    rw [hl] at hv
    dsimp only at hv
    split at hv
    · cases hv
    · rename_i hne
      cases hv
      refine ⟨hne, fun q hq => ?_, w.take i, w.drop i, out, (List.take_append_drop i w).symm, ?_, hl, fun q => ?_, ?_⟩
      · simp only [List.mem_filter, Bool.and_eq_true, List.contains_iff_mem] at hq
        obtain ⟨h1, b, h2, h3⟩ := Lemma.lemmaCandidate_sound hl q hq.1
        rw [List.take_append_drop] at h3
        exact ⟨hq.2.1, hq.2.2, h1, b, h2, h3⟩
      · intro h0
        rw [h0] at hl
        cases hl
      · simp only [List.mem_filter, Bool.and_eq_true, List.contains_iff_mem]
      · intro l' r' out' hw hlt ho' q hq hc
        subst hw
        rw [List.length_take] at hlt
        have hin : l'.length ∈ (List.range' 1 ((l' ++ r').length + 1)).reverse := by
          rw [List.mem_reverse, List.mem_range'_1, List.length_append]; omega
        rw [hsplit] at hin hpw
        have hp : l'.length ∈ pre := by
          rcases List.mem_append.1 hin with hin | hin
          · exact hin
          · exfalso
            have hle : l'.length ≤ i := by
              rcases List.mem_cons.1 hin with h9 | h9
              · omega
              · have := (List.pairwise_cons.1 (List.pairwise_append.1 hpw).2.1).1 _ h9; omega
            rw [List.length_append] at hlt; omega
        have := hpre _ hp
        simp only [List.take_left, List.drop_left, ho'] at this
        split at this
        · rename_i h0
          rw [List.filter_eq_nil_iff] at h0
          exact h0 q hq (by simp [hc.1, hc.2])
        · cases this

theorem lemmatize_none {stems eomis : List Str} {w : Str} (h : lemmatize stems eomis w = none) (l r : Str) (hw : w = l ++ r) (hl : l ≠ [])
    (out : List (Str × Str)) (ho : Lemma.lemmaCandidate l r = .ok out) (q : Str × Str) (hq : q ∈ out) : ¬ (q.1 ∈ stems ∧ q.2 ∈ eomis) := by
  subst hw
  unfold lemmatize at h
  rw [List.findSome?_eq_none_iff] at h
  have := h l.length (by
    simp only [List.mem_reverse, List.mem_range'_1, List.length_append]
    have := List.length_pos_iff.2 hl; omega)
  simp only [List.take_left, List.drop_left, ho] at this
  intro hc
  split at this
  · rename_i h0
    rw [List.filter_eq_nil_iff] at h0
    exact h0 q hq (by simp [hc.1, hc.2])
  · cases this

end NewsPos
