import Verif.Py.DictInt
/-!
Two-level dictionaries `{a: {b: count}}`: `defaultdict(lambda: defaultdict(int))` increments, decrements that drop
emptied entries, and their lemmas.
-/
namespace Py
variable {κ : Type} [DecidableEq κ]

/-- `{a: {b: count}}` -/
abbrev Nested (κ : Type) := Dict κ (Dict κ Int)

namespace Nested

/-- `g[a][b]`, if both are present -/
def get2 (g : Nested κ) (a b : κ) : Option Int := (Dict.get? g a).bind (fun t => Dict.get? t b)

/-- `g.get(a, {})` -/
def row (g : Nested κ) (a : κ) : Dict κ Int := (Dict.get? g a).getD []

/-- `g[a][b] += c` on a `defaultdict(lambda: defaultdict(int))` -/
def nadd (g : Nested κ) (a b : κ) (c : Int) : Nested κ := Dict.set g a (Dict.addI (row g a) b c)

/-- all `((a, b), count)` entries -/
def flat (g : Nested κ) : Dict (κ × κ) Int := g.flatMap (fun lt => lt.2.map (fun rc => ((lt.1, rc.1), rc.2)))

/-- keys are unique at both levels and no inner table is empty -/
structure WF2 (g : Nested κ) : Prop where
  outer : Dict.WF g
  inner : ∀ a t, (a, t) ∈ g → Dict.WF t
  nonempty : ∀ a t, (a, t) ∈ g → t ≠ []

omit [DecidableEq κ] in
theorem wf2_nil : WF2 ([] : Nested κ) := ⟨Dict.wf_nil, by simp, by simp⟩

instance {ν : Type} (d : Dict κ ν) : Decidable (Dict.WF d) := inferInstanceAs (Decidable (List.Nodup _))

omit [DecidableEq κ] in
theorem wf2_of_check {g : Nested κ} (h : Dict.WF g ∧ ∀ x ∈ g, Dict.WF x.2 ∧ x.2 ≠ []) : WF2 g :=
  ⟨h.1, fun a t hm => (h.2 (a, t) hm).1, fun a t hm => (h.2 (a, t) hm).2⟩

theorem WF2.row_wf {g : Nested κ} (h : WF2 g) (a : κ) : Dict.WF (row g a) := by
  unfold row
  cases hg : Dict.get? g a with
  | none => exact Dict.wf_nil
  | some t => exact h.inner a t (Dict.mem_of_get? hg)

theorem get2_eq_row (g : Nested κ) (a b : κ) : get2 g a b = Dict.get? (row g a) b := by
  unfold get2 row
  cases Dict.get? g a <;> rfl

theorem row_set (g : Nested κ) (a a' : κ) (t : Dict κ Int) : row (Dict.set g a t) a' = if a = a' then t else row g a' := by
  unfold row; rw [Dict.get?_set]; split <;> rfl

theorem row_erase (g : Nested κ) (a a' : κ) : row (Dict.erase g a) a' = if a = a' then [] else row g a' := by
  unfold row; rw [Dict.get?_erase]; split <;> rfl

theorem get2_nadd (g : Nested κ) (a b a' b' : κ) (c : Int) :
    get2 (nadd g a b c) a' b' = if a = a' ∧ b = b' then some ((get2 g a' b').getD 0 + c) else get2 g a' b' := by
  rw [get2_eq_row, get2_eq_row, nadd, row_set]
  by_cases ha : a = a'
  · subst ha
    rw [if_pos rfl, Dict.get?_addI]
    by_cases hb : b = b'
    · subst hb; simp
    · simp [hb]
  · simp [ha]

theorem mem_set {g : Nested κ} (h : WF2 g) {a a' : κ} {t t' : Dict κ Int} (hm : (a', t') ∈ Dict.set g a t) :
    (a' = a ∧ t' = t) ∨ (a', t') ∈ g := by
  rw [Dict.mem_iff_get? (h.outer.set a t), Dict.get?_set] at hm
  split at hm
  · rename_i e; cases hm; exact Or.inl ⟨e.symm, rfl⟩
  · exact Or.inr (Dict.mem_of_get? hm)

theorem WF2.set {g : Nested κ} (h : WF2 g) (a : κ) {t : Dict κ Int} (ht : Dict.WF t) (hne : t ≠ []) : WF2 (Dict.set g a t) := by
  refine ⟨h.outer.set _ _, ?_, ?_⟩
  · intro a' t' hm
    rcases mem_set h hm with ⟨rfl, rfl⟩ | hm
    · exact ht
    · exact h.inner _ _ hm
  · intro a' t' hm
    rcases mem_set h hm with ⟨rfl, rfl⟩ | hm
    · exact hne
    · exact h.nonempty _ _ hm

theorem set_ne_nil {ν : Type} (d : Dict κ ν) (k : κ) (v : ν) : Dict.set d k v ≠ [] := by
  cases d with
  | nil => simp [Dict.set]
  | cons a d => obtain ⟨a, b⟩ := a; simp only [Dict.set]; split <;> simp

theorem WF2.nadd {g : Nested κ} (h : WF2 g) (a b : κ) (c : Int) : WF2 (nadd g a b c) :=
  h.set a ((h.row_wf a).addI b c) (set_ne_nil _ _ _)

theorem WF2.erase {g : Nested κ} (h : WF2 g) (a : κ) : WF2 (Dict.erase g a) :=
  ⟨h.outer.erase a, fun a' t hm => h.inner a' t (List.mem_filter.1 hm).1, fun a' t hm => h.nonempty a' t (List.mem_filter.1 hm).1⟩

/-- adding a list of entries with distinct keys -/
theorem get2_foldl_nadd (xs : Dict (κ × κ) Int) (hx : Dict.WF xs) (g : Nested κ) (a b : κ) :
    get2 (xs.foldl (fun g x => nadd g x.1.1 x.1.2 x.2) g) a b =
      match Dict.get? xs (a, b) with
      | none => get2 g a b
      | some v => some ((get2 g a b).getD 0 + v) := by
  induction xs generalizing g with
  | nil => rfl
  | cons x xs ih =>
    obtain ⟨⟨a0, b0⟩, v0⟩ := x
    simp only [Dict.WF, Dict.keys, List.map_cons, List.nodup_cons] at hx
    rw [List.foldl_cons, ih hx.2, Dict.get?_cons, get2_nadd]
    by_cases hk : (a0, b0) = (a, b)
    · have hn : Dict.get? xs (a, b) = none := (Dict.get?_eq_none_iff xs (a, b)).2 (hk ▸ hx.1)
      rw [hn, if_pos hk]
      cases hk; simp
    · rw [if_neg hk, if_neg (by rintro ⟨rfl, rfl⟩; exact hk rfl)]

/-- adding a list of entries, with repetitions: the value is the sum, present iff some entry or present before -/
theorem getD_get2_foldl_nadd {β : Type} (xs : List β) (ka kb : β → κ) (w : β → Int) (g : Nested κ) (a b : κ) :
    (get2 (xs.foldl (fun g x => nadd g (ka x) (kb x) (w x)) g) a b).getD 0 =
      (get2 g a b).getD 0 + ((xs.filter (fun x => decide (ka x = a ∧ kb x = b))).map w).sum := by
  induction xs generalizing g with
  | nil => simp
  | cons x xs ih =>
    rw [List.foldl_cons, ih, get2_nadd]
    by_cases h : ka x = a ∧ kb x = b
    · simp [h]; omega
    · simp [h]

theorem isSome_get2_foldl_nadd {β : Type} (xs : List β) (ka kb : β → κ) (w : β → Int) (g : Nested κ) (a b : κ) :
    (get2 (xs.foldl (fun g x => nadd g (ka x) (kb x) (w x)) g) a b).isSome = true ↔
      (get2 g a b).isSome = true ∨ ∃ x ∈ xs, ka x = a ∧ kb x = b := by
  induction xs generalizing g with
  | nil => simp
  | cons x xs ih =>
    rw [List.foldl_cons, ih, get2_nadd]
    by_cases h : ka x = a ∧ kb x = b
    · simp [h]
    · simp [h]

theorem WF2.foldl_nadd {β : Type} (xs : List β) (ka kb : β → κ) (w : β → Int) {g : Nested κ} (h : WF2 g) :
    WF2 (xs.foldl (fun g x => Nested.nadd g (ka x) (kb x) (w x)) g) := by
  induction xs generalizing g with
  | nil => exact h
  | cons x xs ih => exact ih (h.nadd _ _ _)

theorem get?_map_pair (l : κ) (t : Dict κ Int) (a b : κ) :
    Dict.get? (t.map (fun rc => ((l, rc.1), rc.2))) (a, b) = if l = a then Dict.get? t b else none := by
  induction t with
  | nil => simp
  | cons x t ih =>
    obtain ⟨r, c⟩ := x
    rw [List.map_cons, Dict.get?_cons, Dict.get?_cons, ih]
    by_cases h1 : l = a
    · subst h1; by_cases h2 : r = b
      · subst h2; simp
      · simp [h2]
    · simp [h1]

theorem get?_flat {g : Nested κ} (h : Dict.WF g) (a b : κ) : Dict.get? (flat g) (a, b) = get2 g a b := by
  induction g with
  | nil => rfl
  | cons x g ih =>
    obtain ⟨l, t⟩ := x
    simp only [Dict.WF, Dict.keys, List.map_cons, List.nodup_cons] at h
    have ih := ih h.2
    unfold flat at ih ⊢
    rw [List.flatMap_cons, Dict.get?_append, ih, get?_map_pair]
    show _ = ((Dict.get? ((l, t) :: g) a).bind (fun t => Dict.get? t b))
    rw [Dict.get?_cons]
    by_cases h1 : l = a
    · subst h1
      have hn : Dict.get? g l = none := (Dict.get?_eq_none_iff g l).2 h.1
      simp [get2, hn]
    · simp [h1, get2]

omit [DecidableEq κ] in
theorem mem_flat {g : Nested κ} {a b : κ} {c : Int} : ((a, b), c) ∈ flat g ↔ ∃ t, (a, t) ∈ g ∧ (b, c) ∈ t := by
  unfold flat
  rw [List.mem_flatMap]
  constructor
  · rintro ⟨⟨l, t⟩, hm, h⟩
    obtain ⟨⟨r, c'⟩, h1, h2⟩ := List.mem_map.1 h
    cases h2
    exact ⟨t, hm, h1⟩
  · rintro ⟨t, hm, h⟩
    exact ⟨(a, t), hm, List.mem_map.2 ⟨(b, c), h, rfl⟩⟩

omit [DecidableEq κ] in
theorem wf_flat {g : Nested κ} (h : Dict.WF g) (hi : ∀ a t, (a, t) ∈ g → Dict.WF t) : Dict.WF (flat g) := by
  induction g with
  | nil => exact Dict.wf_nil
  | cons x g ih =>
    obtain ⟨l, t⟩ := x
    simp only [Dict.WF, Dict.keys, List.map_cons, List.nodup_cons] at h
    have ih := ih h.2 (fun a t hm => hi a t (by simp [hm]))
    have ht := hi l t (by simp)
    unfold Dict.WF Dict.keys at *
    unfold flat at *
    rw [List.flatMap_cons, List.map_append, List.nodup_append]
    refine ⟨?_, ih, ?_⟩
    · rw [List.map_map]
      have : (fun x => x.1) ∘ (fun rc : κ × Int => ((l, rc.1), rc.2)) = (fun k => (l, k)) ∘ (fun x => x.1) := rfl
      rw [this, ← List.map_map]
      exact ht.map _ (by intro x y hxy hne; exact hxy (by simpa using hne))
    · intro p hp q hq hpq
      subst hpq
      obtain ⟨⟨p1, c1⟩, hm1, rfl⟩ := List.mem_map.1 hp
      obtain ⟨⟨r, c⟩, _, e⟩ := List.mem_map.1 hm1
      obtain ⟨⟨p2, c2⟩, hm2, e2⟩ := List.mem_map.1 hq
      obtain ⟨⟨l', t'⟩, hm3, hm4⟩ := List.mem_flatMap.1 hm2
      obtain ⟨⟨r', c'⟩, _, e'⟩ := List.mem_map.1 hm4
      have ee : p1 = (l, r) := by have := congrArg Prod.fst e; exact this.symm
      have ee' : p2 = (l', r') := by have := congrArg Prod.fst e'; exact this.symm
      have e3 : p2 = p1 := e2
      rw [ee, ee'] at e3
      have : l' = l := congrArg Prod.fst e3
      exact h.1 (List.mem_map.2 ⟨(l', t'), hm3, this⟩)

omit [DecidableEq κ] in
theorem foldl_flat {σ : Type} (f : σ → (κ × κ) × Int → σ) (g : Nested κ) (s : σ) :
    (flat g).foldl f s = g.foldl (fun s lt => lt.2.foldl (fun s rc => f s ((lt.1, rc.1), rc.2)) s) s := by
  unfold flat
  induction g generalizing s with
  | nil => rfl
  | cons x g ih => rw [List.flatMap_cons, List.foldl_append, List.foldl_cons, ih, List.foldl_map]

/-- two nested dictionaries with the same entries have the same rows up to order -/
theorem row_perm {g h : Nested κ} (hg : WF2 g) (hh : WF2 h) (e : ∀ a b, get2 g a b = get2 h a b) (a : κ) :
    (row g a).Perm (row h a) := by
  apply Dict.perm_of_get? (hg.row_wf a) (hh.row_wf a)
  intro b
  rw [← get2_eq_row, ← get2_eq_row, e]

end Nested
end Py
