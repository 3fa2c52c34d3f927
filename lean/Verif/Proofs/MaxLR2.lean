import Verif.Proofs.MaxLR
/-! `MaxLRScoreTokenizer`: from the chosen spans to the tokens. -/
set_option linter.unusedVariables false
set_option linter.unusedSimpArgs false
namespace MaxLR
open Py LRSpec Spec

/-- the base tokens of a piece -/
def tok (g : Config) (s : Str) : List Str := match MaxScore.tokenize g.Dr 10 0 s with | .ok ts => ts | .error _ => []
/-- none is a right word -/
def fine (g : Config) (s : Str) : Bool := (tok g s).all (fun w => !Dict.has g.Dr w)
def gapT (g : Config) (s : Str) : List (Str × Tag) := (tok g s).map (fun w => (w, Tag.L))
def gapC (g : Config) (s : Str) (b : Nat) : List Cand := (tok g s).map (fun w => ⟨w, [], b, b + w.length, b + w.length, w.length, 0, w.length, 0, 0, 0⟩)

theorem tok_spec (g : Config) (s : Str) : MaxScore.tokenize g.Dr 10 0 s = .ok (tok g s) ∧ (∀ w ∈ tok g s, w ≠ []) ∧
    (tok g s).flatten = s.filter (fun c => c.toNat ∉ whitespace) := by
  obtain ⟨ts, h1, h2, h3⟩ := Props.C14_lossless g.Dr 10 (by omega) 0 s
  have : tok g s = ts := by unfold tok; rw [h1]
  rw [this]
  exact ⟨h1, h2, h3⟩

theorem tok_nil (g : Config) : tok g [] = [] := by
  obtain ⟨_, h2, h3⟩ := tok_spec g []
  cases h : tok g [] with
  | nil => rfl
  | cons a l =>
    rw [h] at h2 h3
    simp only [List.flatten_cons, List.filter_nil, List.append_eq_nil_iff] at h3
    exact absurd h3.1 (h2 a List.mem_cons_self)

theorem gapTokens_iff (g : Config) (s : Str) (out : List (Str × Tag)) : GapTokens g s out ↔ fine g s = true ∧ out = gapT g s := by
  unfold GapTokens fine gapT
  rw [(tok_spec g s).1, List.all_eq_true]
  constructor
  · rintro ⟨ts, h1, h2, h3⟩
    cases h1
    exact ⟨fun w hw => by simpa using h2 w hw, h3⟩
  · rintro ⟨h1, h2⟩
    exact ⟨_, rfl, fun w hw => by simpa using h1 w hw, h2⟩

theorem mapM_guard {α β : Type} (p : α → Bool) (f : α → β) (e : PyErr) (l : List α) :
    l.mapM (fun w => if p w = true then (.error e : PyM β) else .ok (f w)) = if l.all (fun w => !p w) = true then .ok (l.map f) else .error e := by
  induction l with
  | nil => rfl
  | cons a l ih =>
    rw [List.mapM_cons, ih]
    by_cases ha : p a = true
    · rw [if_pos ha, if_neg (show ¬ ((a :: l).all (fun w => !p w) = true) by simp [ha])]; rfl
    · rw [if_neg ha]
      by_cases hl : l.all (fun w => !p w) = true
      · rw [if_pos hl, if_pos (by simp only [List.all_cons, hl, Bool.and_true]; simpa using ha)]; rfl
      · rw [if_neg hl, if_neg (by simp only [List.all_cons, Bool.and_eq_true]; exact fun h => hl h.2)]; rfl

theorem baseSub_eq (g : Config) (s : Str) (b : Nat) : baseSub g s b = if fine g s = true then .ok (gapC g s b) else .error .attributeError := by
  unfold baseSub fine gapC
  rw [(tok_spec g s).1]
  simp only [bind, Except.bind]
  exact mapM_guard (fun w => Dict.has g.Dr w) _ _ _

theorem baseSub_nil (g : Config) (b : Nat) : baseSub g [] b = .ok [] := by
  rw [baseSub_eq]
  unfold fine gapC
  rw [tok_nil]; rfl

/-- the tokens of a list of candidates -/
def toks (cs : List Cand) : List (Str × Tag) := (cs.flatMap (fun p => [(p.l, Tag.L), (p.r, Tag.R)])).filter (fun w => w.1 ≠ [])

theorem toks_append (a b : List Cand) : toks (a ++ b) = toks a ++ toks b := by
  unfold toks; rw [List.flatMap_append, List.filter_append]

theorem toks_gapC (g : Config) (s : Str) (b : Nat) : toks (gapC g s b) = gapT g s := by
  unfold gapC gapT
  have := (tok_spec g s).2.1
  revert this
  generalize tok g s = ts
  intro h
  induction ts with
  | nil => rfl
  | cons w ts ih =>
    have hw := h w List.mem_cons_self
    rw [List.map_cons, List.map_cons, ← ih (fun x hx => h x (List.mem_cons_of_mem _ hx))]
    simp [toks, hw]

theorem toks_valued (g : Config) (t : Str) (s : Span) (h : IsCand g t s) : toks [valued g t s] = own t s := by
  have h1 : lword t s ≠ [] := by
    unfold lword
    have := h.h1; have := h.h2; have := h.h3
    rw [Ne, slice_eq_nil (by omega)]; omega
  have h2 : rword t s = [] ↔ s.2.2 ≤ s.2.1 := by
    unfold rword
    rw [slice_eq_nil h.h3]
  unfold toks own valued candOf
  by_cases hr : s.2.1 < s.2.2
  · have : rword t s ≠ [] := by rw [Ne, h2]; omega
    rw [if_pos hr]
    simp [h1, this]
  · have : rword t s = [] := h2.2 (by omega)
    rw [if_neg hr]
    simp [h1, this]

section
variable (g : Config) (t : Str)

def fineAll : Nat → List Span → Nat → Bool
  | _, [], z => fine g (t.drop z)
  | a, s :: ss, _ => fine g (slice t a s.1) && fineAll s.2.2 ss s.2.1
def outAll : Nat → List Span → Nat → List (Str × Tag)
  | _, [], z => gapT g (t.drop z)
  | a, s :: ss, _ => gapT g (slice t a s.1) ++ own t s ++ outAll s.2.2 ss s.2.1

theorem from_iff : ∀ (ps : List Span) (s : Span) (a z : Nat) (out : List (Str × Tag)),
    From g t a (s :: ps) out ↔ fineAll g t a (s :: ps) z = true ∧ out = outAll g t a (s :: ps) z := by
  intro ps
  induction ps with
  | nil =>
    intro s a z out
    simp only [fineAll, outAll, Bool.and_eq_true]
    constructor
    · intro h
      cases h with
      | last _ _ gap tail h1 h2 =>
        rw [gapTokens_iff] at h1 h2
        exact ⟨⟨h1.1, h2.1⟩, by rw [h1.2, h2.2]⟩
    · rintro ⟨⟨h1, h2⟩, rfl⟩
      exact .last _ _ _ _ ((gapTokens_iff _ _ _).2 ⟨h1, rfl⟩) ((gapTokens_iff _ _ _).2 ⟨h2, rfl⟩)
  | cons s' ps ih =>
    intro s a z out
    rw [fineAll, outAll, Bool.and_eq_true]
    constructor
    · intro h
      cases h with
      | step _ _ _ _ gap rest h1 h2 =>
        rw [gapTokens_iff] at h1
        obtain ⟨k1, k2⟩ := (ih s' s.2.2 s.2.1 rest).1 h2
        exact ⟨⟨h1.1, k1⟩, by rw [h1.2, k2]⟩
    · rintro ⟨⟨h1, h2⟩, rfl⟩
      exact .step _ _ _ _ _ _ ((gapTokens_iff _ _ _).2 ⟨h1, rfl⟩) ((ih s' s.2.2 s.2.1 _).2 ⟨h2, rfl⟩)

/-- the inner gaps -/
def gapsIn : Nat → List Span → List (List Cand)
  | _, [] => []
  | a, s :: ss => gapC g (slice t a s.1) a :: gapsIn s.2.2 ss
def fineIn : Nat → List Span → Bool
  | _, [] => true
  | a, s :: ss => fine g (slice t a s.1) && fineIn s.2.2 ss
def lastJ : List Span → Nat → Nat
  | [], z => z
  | s :: ss, _ => lastJ ss s.2.1

theorem fineAll_eq : ∀ (ps : List Span) (a z : Nat), fineAll g t a ps z = (fineIn g t a ps && fine g (t.drop (lastJ ps z))) := by
  intro ps
  induction ps with
  | nil => intro a z; simp [fineAll, fineIn, lastJ]
  | cons s ps ih => intro a z; rw [fineAll, fineIn, lastJ, ih, Bool.and_assoc]

theorem interSubs_eq : ∀ (ps : List Span) (s : Span),
    interSubs g t ((s :: ps).map (valued g t)) = if fineIn g t s.2.2 ps = true then .ok (gapsIn g t s.2.2 ps) else .error .attributeError := by
  intro ps
  induction ps with
  | nil => intro s; rfl
  | cons s' ps ih =>
    intro s
    have ih := ih s'
    unfold interSubs at ih ⊢
    simp only [List.map_cons, List.tail_cons, List.zip_cons_cons, List.mapM_cons] at ih ⊢
    rw [ih]
    have hgap : (if (valued g t s).p2 = (valued g t s').p0 then (.ok [] : PyM (List Cand)) else
        baseSub g (slice t (valued g t s).p2 (valued g t s').p0) (valued g t s).p2) = baseSub g (slice t s.2.2 s'.1) s.2.2 := by
      by_cases h : s.2.2 = s'.1
      · rw [if_pos (show (valued g t s).p2 = (valued g t s').p0 from h), ← h, slice_self, baseSub_nil]
      · rw [if_neg (show ¬ (valued g t s).p2 = (valued g t s').p0 from h)]; rfl
    rw [hgap, baseSub_eq]
    have hfi : fineIn g t s.2.2 (s' :: ps) = (fine g (slice t s.2.2 s'.1) && fineIn g t s'.2.2 ps) := rfl
    by_cases h1 : fine g (slice t s.2.2 s'.1) = true
    · rw [if_pos h1]
      by_cases h2 : fineIn g t s'.2.2 ps = true
      · rw [if_pos h2, if_pos (show fineIn g t s.2.2 (s' :: ps) = true by rw [hfi, h1, h2]; rfl)]; rfl
      · rw [if_neg h2, if_neg (show ¬ fineIn g t s.2.2 (s' :: ps) = true by rw [hfi, h1, Bool.true_and]; exact h2)]; rfl
    · rw [if_neg h1, if_neg (show ¬ fineIn g t s.2.2 (s' :: ps) = true by rw [hfi, Bool.and_eq_true]; exact fun h => h1 h.1)]; rfl

def wordB (s : Span) : Nat × List Cand := (s.1, [valued g t s])
def gapB (a : Nat) (s : Span) : List (Nat × List Cand) := if a = s.1 then [] else [(a, gapC g (slice t a s.1) a)]
def textB : Nat → List Span → List (Nat × List Cand)
  | _, [] => []
  | a, s :: ss => gapB g t a s ++ (wordB g t s :: textB s.2.2 ss)
def gapsB : Nat → List Span → List (Nat × List Cand)
  | _, [] => []
  | a, s :: ss => gapB g t a s ++ gapsB s.2.2 ss

theorem gapC_nil (b : Nat) : gapC g [] b = [] := by unfold gapC; rw [tok_nil]; rfl

theorem gapB_flat (a : Nat) (s : Span) : (gapB g t a s).flatMap (·.2) = gapC g (slice t a s.1) a := by
  unfold gapB
  by_cases h : a = s.1
  · rw [if_pos h, h, slice_self, gapC_nil]; rfl
  · rw [if_neg h]; simp

theorem gapsB_flat : ∀ (ps : List Span) (a : Nat), (gapsB g t a ps).flatMap (·.2) = (gapsIn g t a ps).flatten := by
  intro ps
  induction ps with
  | nil => intro a; rfl
  | cons s ps ih => intro a; rw [gapsB, gapsIn, List.flatMap_append, gapB_flat, ih, List.flatten_cons]

theorem textB_perm : ∀ (ps : List Span) (a : Nat), (textB g t a ps).Perm (ps.map (wordB g t) ++ gapsB g t a ps) := by
  intro ps
  induction ps with
  | nil => intro a; exact .refl _
  | cons s ps ih =>
    intro a
    rw [textB, gapsB, List.map_cons]
    refine (List.Perm.append_left _ ((ih s.2.2).cons _)).trans ?_
    rw [List.perm_iff_count]
    intro x
    simp only [List.count_append, List.count_cons]
    omega

theorem textB_keys : ∀ (ps : List Span) (a : Nat), (∀ s ∈ ps, s.1 < s.2.1 ∧ s.2.1 ≤ s.2.2) → ps.Pairwise (fun a b => a.2.2 ≤ b.1) → (∀ s ∈ ps, a ≤ s.1) →
    (∀ b ∈ textB g t a ps, a ≤ b.1 ∧ (∀ z, b.1 < lastJ ps z) ∧ ∀ x ∈ b.2, x.p0 = b.1) ∧ (textB g t a ps).Pairwise (fun b c => b.1 < c.1) := by
  intro ps
  induction ps with
  | nil => intro a _ _ _; exact ⟨by simp [textB], .nil⟩
  | cons s ps ih =>
    intro a h1 h2 h3
    rw [List.pairwise_cons] at h2
    obtain ⟨k1, k2⟩ := h1 s List.mem_cons_self
    have k3 := h3 s List.mem_cons_self
    obtain ⟨i1, i2⟩ := ih s.2.2 (fun x hx => h1 x (List.mem_cons_of_mem _ hx)) h2.2 h2.1
    have hlast : ∀ z, s.1 < lastJ (s :: ps) z := by
      intro z
      rw [lastJ]
      cases ps with
      | nil => exact k1
      | cons s' ps =>
        rw [lastJ]
        have := h2.1 s' List.mem_cons_self
        have hb := (i1 (wordB g t s') (by rw [textB]; simp)).2.1 0
        rw [lastJ] at hb
        have : s'.1 < lastJ ps s'.2.1 := hb
        omega
    have hgap : ∀ b ∈ gapB g t a s, b.1 = a ∧ a < s.1 ∧ ∀ x ∈ b.2, x.p0 = b.1 := by
      intro b hb
      unfold gapB at hb
      by_cases h : a = s.1
      · rw [if_pos h] at hb; cases hb
      · rw [if_neg h, List.mem_singleton] at hb
        subst hb
        refine ⟨rfl, by omega, ?_⟩
        intro x hx
        obtain ⟨w, _, rfl⟩ := List.mem_map.1 hx
        rfl
    rw [textB]
    constructor
    · intro b hb
      rcases List.mem_append.1 hb with hb | hb
      · obtain ⟨q1, q2, q3⟩ := hgap b hb
        exact ⟨by omega, fun z => by have := hlast z; omega, q3⟩
      · rcases List.mem_cons.1 hb with rfl | hb
        · refine ⟨k3, hlast, ?_⟩
          intro x hx
          have : x = valued g t s := List.mem_singleton.1 hx
          rw [this]; rfl
        · obtain ⟨q1, q2, q3⟩ := i1 b hb
          refine ⟨by omega, fun z => ?_, q3⟩
          rw [lastJ]
          exact q2 _
    · rw [List.pairwise_append, List.pairwise_cons]
      refine ⟨?_, ⟨?_, i2⟩, ?_⟩
      · unfold gapB
        split <;> simp
      · intro b hb
        have := (i1 b hb).1
        show s.1 < b.1
        omega
      · intro b hb c hc
        obtain ⟨q1, q2, _⟩ := hgap b hb
        rcases List.mem_cons.1 hc with rfl | hc
        · show b.1 < s.1; omega
        · have := (i1 c hc).1
          omega

theorem textB_toks : ∀ (ps : List Span) (a z : Nat), (∀ s ∈ ps, IsCand g t s) →
    toks ((textB g t a ps).flatMap (·.2)) ++ gapT g (t.drop (lastJ ps z)) = outAll g t a ps z := by
  intro ps
  induction ps with
  | nil => intro a z _; rfl
  | cons s ps ih =>
    intro a z h
    rw [textB, outAll, lastJ, List.flatMap_append, List.flatMap_cons, toks_append, toks_append, gapB_flat, toks_gapC]
    have : toks (wordB g t s).2 = own t s := toks_valued g t s (h s List.mem_cons_self)
    rw [this, List.append_assoc, List.append_assoc, List.append_assoc, ih _ _ (fun x hx => h x (List.mem_cons_of_mem _ hx))]

theorem postprocess_eq (s : Span) (ss : List Span) (hc : ∀ x ∈ s :: ss, IsCand g t x) (hp : (s :: ss).Pairwise (fun a b => a.2.2 ≤ b.1)) (z : Nat) :
    (fineAll g t 0 (s :: ss) z = true → ∃ cs, postprocess g t ((s :: ss).map (valued g t)) = .ok cs ∧ toks cs = outAll g t 0 (s :: ss) z) ∧
    (fineAll g t 0 (s :: ss) z = false → postprocess g t ((s :: ss).map (valued g t)) = .error .attributeError) := by
  have hfirst : firstSub g t ((s :: ss).map (valued g t)) = baseSub g (slice t 0 s.1) 0 := by
    unfold firstSub
    rw [List.map_cons, List.head?_cons]
    dsimp only
    by_cases h : s.1 > 0
    · rw [if_pos (show (valued g t s).p0 > 0 from h)]; rfl
    · rw [if_neg (show ¬ (valued g t s).p0 > 0 from h)]
      have : s.1 = 0 := by omega
      rw [this, slice_self, baseSub_nil]
  have hlastq : ∀ (ps : List Span) (s : Span), ∃ q, ((s :: ps).map (valued g t)).getLast? = some (valued g t q) ∧ q ∈ s :: ps ∧ q.2.1 = lastJ (s :: ps) z := by
    intro ps
    induction ps with
    | nil => intro s; exact ⟨s, rfl, List.mem_cons_self, rfl⟩
    | cons s' ps ih =>
      intro s
      obtain ⟨q, q1, q2, q3⟩ := ih s'
      refine ⟨q, ?_, List.mem_cons_of_mem _ q2, ?_⟩
      · rw [List.map_cons, List.map_cons, List.getLast?_cons_cons, ← List.map_cons]; exact q1
      · rw [q3]; rfl
  obtain ⟨q, q1, q2, q3⟩ := hlastq ss s
  have hql := (hc q q2).h3
  have hq2 := (hc q q2).h2
  have hlast : lastSub g t ((s :: ss).map (valued g t)) = baseSub g (t.drop (lastJ (s :: ss) z)) (lastJ (s :: ss) z) := by
    unfold lastSub
    rw [q1]
    dsimp only
    rw [← q3]
    by_cases h : q.2.1 < t.length
    · rw [if_pos (show (valued g t q).p1 < t.length from h)]; rfl
    · rw [if_neg (show ¬ (valued g t q).p1 < t.length from h), List.drop_eq_nil_of_le (by omega), baseSub_nil]
  have hfa : fineAll g t 0 (s :: ss) z = (fine g (slice t 0 s.1) && (fineIn g t s.2.2 ss && fine g (t.drop (lastJ (s :: ss) z)))) := by
    rw [fineAll_eq, fineIn, Bool.and_assoc]
  unfold postprocess
  rw [hfirst, hlast, interSubs_eq, baseSub_eq, baseSub_eq, hfa]
  constructor
  · intro h
    simp only [Bool.and_eq_true] at h
    rw [if_pos h.1, if_pos h.2.2, if_pos h.2.1]
    refine ⟨_, rfl, ?_⟩
    have hkeys := textB_keys g t (s :: ss) 0 (fun x hx => ⟨(hc x hx).h1, (hc x hx).h2⟩) hp (fun _ _ => Nat.zero_le _)
    let lB : List (Nat × List Cand) := [(lastJ (s :: ss) z, gapC g (t.drop (lastJ (s :: ss) z)) (lastJ (s :: ss) z))]
    have hsort := sorted_blocks Cand.p0 ((s :: ss).map (wordB g t) ++ ((gapB g t 0 s ++ lB) ++ gapsB g t s.2.2 ss)) (textB g t 0 (s :: ss) ++ lB) ?_ ?_ ?_
    · have hflat : ((s :: ss).map (wordB g t) ++ ((gapB g t 0 s ++ lB) ++ gapsB g t s.2.2 ss)).flatMap (·.2) =
          (s :: ss).map (valued g t) ++ ((gapC g (slice t 0 s.1) 0 ++ gapC g (t.drop (lastJ (s :: ss) z)) (lastJ (s :: ss) z)) ++ (gapsIn g t s.2.2 ss).flatten) := by
        rw [List.flatMap_append, List.flatMap_append, List.flatMap_append, gapB_flat, gapsB_flat]
        congr 1
        · rw [List.flatMap_map]
          simp only [wordB]
          exact List.flatMap_pure_eq_map (valued g t) (s :: ss)
        · congr 2
          simp [lB]
      rw [hflat] at hsort
      rw [hsort, List.flatMap_append, toks_append]
      have : lB.flatMap (·.2) = gapC g (t.drop (lastJ (s :: ss) z)) (lastJ (s :: ss) z) := by simp [lB]
      rw [this, toks_gapC]
      exact textB_toks g t (s :: ss) 0 z hc
    · refine List.Perm.symm ((List.Perm.append_right _ (textB_perm g t (s :: ss) 0)).trans ?_)
      rw [gapsB, List.perm_iff_count]
      intro x
      simp only [List.count_append]
      omega
    · intro b hb
      rcases List.mem_append.1 hb with hb' | hb'
      · exact (hkeys.1 b ((textB_perm g t (s :: ss) 0).mem_iff.2 (List.mem_append_left _ hb'))).2.2
      · rcases List.mem_append.1 hb' with hb' | hb'
        · rcases List.mem_append.1 hb' with hb' | hb'
          · exact (hkeys.1 b ((textB_perm g t (s :: ss) 0).mem_iff.2 (List.mem_append_right _ (by rw [gapsB]; exact List.mem_append_left _ hb')))).2.2
          · have : b = _ := List.mem_singleton.1 hb'
            subst this
            intro x hx
            obtain ⟨w, _, rfl⟩ := List.mem_map.1 hx
            rfl
        · exact (hkeys.1 b ((textB_perm g t (s :: ss) 0).mem_iff.2 (List.mem_append_right _ (by rw [gapsB]; exact List.mem_append_right _ hb')))).2.2
    · rw [List.pairwise_append]
      refine ⟨hkeys.2, by simp [lB], ?_⟩
      intro b hb c hc
      have : c = _ := List.mem_singleton.1 hc
      subst this
      exact (hkeys.1 b hb).2.1 z
  · intro h
    cases h1 : fine g (slice t 0 s.1) with
    | false => rfl
    | true =>
      cases h2 : fine g (t.drop (lastJ (s :: ss) z)) with
      | false => rfl
      | true =>
        cases h3 : fineIn g t s.2.2 ss with
        | false => rfl
        | true => rw [h1, h2, h3] at h; cases h

end

end MaxLR
