import Verif.Py.Basic
/-!
Python's `sorted`: the stable sort. Any two stable sorts of the same list by the same total preorder give the same
list, so the insertion sort below is Python's result; `sorted_filter` is the stability statement.
`sorted(l, key=k, reverse=True)` is also stable in Python, hence `sorted (fun a b => k b ≤ k a)`.
-/
namespace Py
variable {α : Type _}

/-- insert before the first element that is not smaller -/
def sortInsert (le : α → α → Bool) (a : α) : List α → List α
  | [] => [a]
  | b :: l => if le a b then a :: b :: l else b :: sortInsert le a l

/-- `sorted(l)` for the preorder `le` -/
def sorted (le : α → α → Bool) : List α → List α
  | [] => []
  | a :: l => sortInsert le a (sorted le l)

theorem sortInsert_perm (le : α → α → Bool) (a : α) (l : List α) : (sortInsert le a l).Perm (a :: l) := by
  induction l with
  | nil => exact .refl _
  | cons b l ih =>
    simp only [sortInsert]; split
    · exact .refl _
    · exact (ih.cons b).trans (.swap a b l)

theorem sorted_perm (le : α → α → Bool) (l : List α) : (sorted le l).Perm l := by
  induction l with
  | nil => exact .refl _
  | cons a l ih => exact (sortInsert_perm le a _).trans (ih.cons a)

@[simp] theorem mem_sorted {le : α → α → Bool} {a : α} {l : List α} : a ∈ sorted le l ↔ a ∈ l := (sorted_perm le l).mem_iff
@[simp] theorem length_sorted (le : α → α → Bool) (l : List α) : (sorted le l).length = l.length := (sorted_perm le l).length_eq
@[simp] theorem sorted_nil (le : α → α → Bool) : sorted le ([] : List α) = [] := rfl
theorem sorted_ne_nil {le : α → α → Bool} {l : List α} (h : l ≠ []) : sorted le l ≠ [] := by
  intro h'; have := length_sorted le l; rw [h'] at this; exact h (List.length_eq_zero_iff.1 this.symm)

/-- `le` is a total preorder -/
structure TotalPre (le : α → α → Bool) : Prop where
  trans : ∀ a b c, le a b = true → le b c = true → le a c = true
  total : ∀ a b, le a b = true ∨ le b a = true

theorem pairwise_sorted {le : α → α → Bool} (h : TotalPre le) (l : List α) : (sorted le l).Pairwise (fun a b => le a b = true) := by
  induction l with
  | nil => exact .nil
  | cons a l ih =>
    simp only [sorted]
    generalize sorted le l = m at ih
    induction m with
    | nil => simp [sortInsert]
    | cons b m ihm =>
      rw [List.pairwise_cons] at ih
      simp only [sortInsert]; split
      · rename_i hab
        refine List.pairwise_cons.2 ⟨?_, List.pairwise_cons.2 ih⟩
        intro c hc
        rcases List.mem_cons.1 hc with rfl | hc
        · exact hab
        · exact h.trans _ _ _ hab (ih.1 c hc)
      · rename_i hab
        refine List.pairwise_cons.2 ⟨?_, ihm ih.2⟩
        intro c hc
        rcases List.mem_cons.1 ((sortInsert_perm le a m).mem_iff.1 hc) with rfl | hc
        · exact (h.total b c).resolve_right hab
        · exact ih.1 c hc

/-- a list in order is left alone -/
theorem sorted_of_pairwise {le : α → α → Bool} {l : List α} (h : l.Pairwise (fun a b => le a b = true)) : sorted le l = l := by
  induction l with
  | nil => rfl
  | cons a l ih =>
    rw [List.pairwise_cons] at h
    simp only [sorted, ih h.2]
    cases l with
    | nil => rfl
    | cons b l => simp [sortInsert, h.1 b (by simp)]

/-- a permutation that is strictly in order is what `sorted` returns -/
theorem sorted_eq_of_perm {le : α → α → Bool} (ht : TotalPre le) {l m : List α} (hp : l.Perm m)
    (hs : m.Pairwise (fun a b => le a b = true ∧ le b a = false)) : sorted le l = m := by
  have h1 := pairwise_sorted ht l
  have h2 := (sorted_perm le l).trans hp
  have h2' := h2
  revert h2 hs
  generalize sorted le l = k at *
  intro hs h2
  induction m generalizing k l with
  | nil => exact List.perm_nil.1 h2
  | cons b m ih =>
    rw [List.pairwise_cons] at hs
    cases k with
    | nil => exact absurd h2.symm (by simp)
    | cons a k =>
      rw [List.pairwise_cons] at h1
      have hab : a = b := by
        have ha : a ∈ b :: m := h2.mem_iff.1 (by simp)
        rcases List.mem_cons.1 ha with h | ha
        · exact h
        · have hb : b ∈ a :: k := h2.mem_iff.2 (by simp)
          rcases List.mem_cons.1 hb with h | hb
          · exact h.symm
          · have e1 := h1.1 b hb
            have e2 := (hs.1 a ha).2
            rw [e1] at e2; cases e2
      subst hab
      have hp' : k.Perm m := (List.perm_cons _).1 h2
      rw [ih (l := k) hp' k h1.2 hp' hs.2 hp']

/-- stability: elements of one key class keep their order -/
theorem sorted_filter {le : α → α → Bool} (p : α → Bool) (hp : ∀ a b, p a = true → p b = true → le a b = true) (l : List α) :
    (sorted le l).filter p = l.filter p := by
  have ins : ∀ a (m : List α), (sortInsert le a m).filter p = (a :: m).filter p := by
    intro a m
    induction m with
    | nil => rfl
    | cons b m ih =>
      simp only [sortInsert]; split
      · rfl
      · rename_i hab
        rw [List.filter_cons, ih]
        cases hb : p b
        · simp [List.filter_cons, hb]
        · cases ha : p a
          · simp [hb, ha]
          · exact absurd (hp a b ha hb) hab
  induction l with
  | nil => rfl
  | cons a l ih =>
    simp only [sorted]
    rw [ins, List.filter_cons, ih, List.filter_cons]

theorem head_sorted {le : α → α → Bool} (h : TotalPre le) {l : List α} {a : α} (ha : (sorted le l).head? = some a) :
    a ∈ l ∧ ∀ b ∈ l, le a b = true := by
  have hp := pairwise_sorted h l
  cases hs : sorted le l with
  | nil => rw [hs] at ha; cases ha
  | cons c m =>
    rw [hs] at ha hp
    cases ha
    have hm : a ∈ sorted le l := by rw [hs]; simp
    refine ⟨mem_sorted.1 hm, fun b hb => ?_⟩
    have : b ∈ sorted le l := mem_sorted.2 hb
    rw [hs] at this
    rcases List.mem_cons.1 this with rfl | hb
    · exact (h.total b b).elim id id
    · exact (List.pairwise_cons.1 hp).1 b hb

/-- two lists in the order of a numeric key which agree on every key class are equal -/
theorem eq_of_key_classes (key : α → Nat) : ∀ (l m : List α), l.Pairwise (fun a b => key a ≤ key b) →
    m.Pairwise (fun a b => key a ≤ key b) → (∀ k, l.filter (fun a => key a = k) = m.filter (fun a => key a = k)) → l = m := by
  intro l
  induction l with
  | nil =>
    intro m _ _ h
    cases m with
    | nil => rfl
    | cons b m => have := h (key b); simp at this
  | cons a l ih =>
    intro m hl hm h
    cases m with
    | nil => have := h (key a); simp at this
    | cons b m =>
      have ha : a ∈ b :: m := by
        have : a ∈ (b :: m).filter (fun x => key x = key a) := by rw [← h]; simp
        exact (List.mem_filter.1 this).1
      have hb : b ∈ a :: l := by
        have : b ∈ (a :: l).filter (fun x => key x = key b) := by rw [h]; simp
        exact (List.mem_filter.1 this).1
      have h1 : key b ≤ key a := by
        rcases List.mem_cons.1 ha with rfl | ha
        · exact Nat.le_refl _
        · exact (List.pairwise_cons.1 hm).1 a ha
      have h2 : key a ≤ key b := by
        rcases List.mem_cons.1 hb with rfl | hb
        · exact Nat.le_refl _
        · exact (List.pairwise_cons.1 hl).1 b hb
      have hk : key a = key b := by omega
      have hab : a = b := by
        have := h (key a)
        simp [hk] at this
        exact this.1
      subst hab
      congr 1
      refine ih m (List.pairwise_cons.1 hl).2 (List.pairwise_cons.1 hm).2 fun k => ?_
      have := h k
      by_cases hka : key a = k
      · simpa [hka] using this
      · simpa [hka] using this

/-- stable sorting by a numeric key: blocks of constant, pairwise different key come out in the order of the keys -/
theorem sorted_blocks (key : α → Nat) (bs cs : List (Nat × List α)) (hp : bs.Perm cs)
    (hk : ∀ b ∈ bs, ∀ x ∈ b.2, key x = b.1) (hc : cs.Pairwise (fun b c => b.1 < c.1)) :
    sorted (fun a b => decide (key a ≤ key b)) (bs.flatMap (·.2)) = cs.flatMap (·.2) := by
  have htp : TotalPre (fun a b => decide (key a ≤ key b)) := by
    refine ⟨fun a b c h1 h2 => ?_, fun a b => ?_⟩
    · simp only [decide_eq_true_eq] at *; omega
    · simp only [decide_eq_true_eq] at *; omega
  have hkc : ∀ b ∈ cs, ∀ x ∈ b.2, key x = b.1 := fun b hb => hk b (hp.mem_iff.2 hb)
  have hfil : ∀ (ds : List (Nat × List α)), (∀ b ∈ ds, ∀ x ∈ b.2, key x = b.1) → ∀ k,
      (ds.flatMap (·.2)).filter (fun a => key a = k) = (ds.filter (fun b => b.1 = k)).flatMap (·.2) := by
    intro ds hds k
    induction ds with
    | nil => rfl
    | cons d ds ih =>
      have hd := hds d (by simp)
      rw [List.flatMap_cons, List.filter_append, ih (fun b hb => hds b (by simp [hb]))]
      by_cases h : d.1 = k
      · have : d.2.filter (fun a => key a = k) = d.2 := by
          rw [List.filter_eq_self]; intro x hx; simp [hd x hx, h]
        rw [this]; simp [h]
      · have : d.2.filter (fun a => key a = k) = [] := by
          rw [List.filter_eq_nil_iff]; intro x hx; simp [hd x hx, h]
        rw [this]; simp [h]
  apply eq_of_key_classes key
  · have := pairwise_sorted htp (bs.flatMap (·.2))
    exact this.imp (fun h => by simpa using h)
  · clear hp hk hfil
    induction cs with
    | nil => exact .nil
    | cons c cs ih =>
      rw [List.flatMap_cons, List.pairwise_append]
      obtain ⟨h1, h2⟩ := List.pairwise_cons.1 hc
      refine ⟨?_, ih h2 (fun b hb => hkc b (by simp [hb])), ?_⟩
      · refine List.Pairwise.imp_of_mem (R := fun _ _ => True) ?_ (List.pairwise_of_forall (fun _ _ => trivial))
        intro a b ha hb _
        rw [hkc c (by simp) a ha, hkc c (by simp) b hb]
        exact Nat.le_refl _
      · intro a ha b hb
        obtain ⟨d, hd, hbd⟩ := List.mem_flatMap.1 hb
        rw [hkc c (by simp) a ha, hkc d (by simp [hd]) b hbd]
        exact Nat.le_of_lt (h1 d hd)
  · intro k
    have hst := sorted_filter (le := fun a b => decide (key a ≤ key b)) (fun a => decide (key a = k)) (by
      intro a b ha hb; simp only [decide_eq_true_eq] at *; omega) (bs.flatMap (·.2))
    rw [hst, hfil bs hk, hfil cs hkc]
    have hpf := hp.filter (fun b => decide (b.1 = k))
    have hlen : (cs.filter (fun b => decide (b.1 = k))).length ≤ 1 := by
      have hpw := hc.filter (fun b => decide (b.1 = k))
      match hcase : cs.filter (fun b => decide (b.1 = k)) with
      | [] => rw [hcase]; simp
      | [_] => rw [hcase]; simp
      | x :: y :: rest =>
        rw [hcase] at hpw
        have hx : x ∈ cs.filter (fun b => decide (b.1 = k)) := by rw [hcase]; simp
        have hy : y ∈ cs.filter (fun b => decide (b.1 = k)) := by rw [hcase]; simp
        have h1 := (List.mem_filter.1 hx).2
        have h2 := (List.mem_filter.1 hy).2
        have := (List.pairwise_cons.1 hpw).1 y (by simp)
        simp only [decide_eq_true_eq] at h1 h2
        omega
    have : bs.filter (fun b => decide (b.1 = k)) = cs.filter (fun b => decide (b.1 = k)) := by
      match hcase : cs.filter (fun b => decide (b.1 = k)) with
      | [] => rw [hcase] at hpf ⊢; exact hpf.eq_nil
      | [x] => rw [hcase] at hpf ⊢; exact List.perm_singleton.1 hpf
      | x :: y :: rest => rw [hcase] at hlen; simp at hlen
    rw [this]

end Py
