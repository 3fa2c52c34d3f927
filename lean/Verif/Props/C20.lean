import Verif.Model.MaxLR
import Verif.Props.C14_C15
import Mathlib.Data.List.Forall2
import Mathlib.Tactic.Linarith
/-! C20: MaxLRScoreTokenizer. -/
namespace Props
open Py Spec MaxLR

/-- what every candidate satisfies -/
private structure Fits (g : Config) (t : Str) (c : Cand) : Prop where
  h01 : c.p0 < c.p1
  h12 : c.p1 ≤ c.p2
  h2 : c.p2 ≤ t.length
  l : c.l = slice t c.p0 c.p1
  r : c.r = slice t c.p1 c.p2
  dr : c.r ≠ [] → Dict.has g.Dr c.r = true

private theorem fits_init (g : Config) (t : Str) : ∀ c ∈ initLR g t, Fits g t c := by
  intro c hc
  simp only [initLR, List.mem_flatMap, List.mem_filterMap, List.mem_range] at hc
  obtain ⟨⟨l, b, e, lenL⟩, hl, lenR, hR, h⟩ := hc
  simp only [initL, List.mem_flatMap, List.mem_range, List.mem_filterMap, List.mem_range'_1] at hl
  obtain ⟨b', hb', e', he', h'⟩ := hl
  split at h'
  · simp only [Option.some.injEq, Prod.mk.injEq] at h'
    obtain ⟨rfl, rfl, rfl, rfl⟩ := h'
    dsimp only at h hR
    split at h
    · cases h
    · split at h
      · cases h
      · rename_i hdr
        simp only [Option.some.injEq] at h
        subst h
        refine ⟨by dsimp only; omega, by dsimp only; omega, by dsimp only; omega, rfl, rfl, ?_⟩
        intro hne
        dsimp only at hne ⊢
        cases hh : Dict.has g.Dr (slice t e' (e' + lenR))
        · exact absurd ⟨hne, hh⟩ hdr
        · rfl
  · cases h'

private theorem removeGo_subset (g : Config) (cs out : List Cand) (h : removeSubsetGo g cs = .ok out) : ∀ c ∈ out, c ∈ cs := by
  induction cs generalizing out with
  | nil => simp [removeSubsetGo] at h; subst h; simp
  | cons b cs ih =>
    simp only [removeSubsetGo, bind, Except.bind] at h
    cases h1 : existLonger g b cs with
    | error x => rw [h1] at h; simp at h
    | ok ex =>
      rw [h1] at h
      cases h2 : removeSubsetGo g cs with
      | error x => rw [h2] at h; simp at h
      | ok rest =>
        rw [h2] at h
        simp only [Except.ok.injEq] at h
        subst h
        intro c hc
        split at hc
        · exact List.mem_cons_of_mem _ (ih rest h2 c hc)
        · rcases List.mem_cons.1 hc with rfl | hc
          · exact List.mem_cons_self
          · exact List.mem_cons_of_mem _ (ih rest h2 c hc)

private theorem fits_total {g : Config} {t : Str} {c : Cand} (h : Fits g t c) (x : Rat) : Fits g t { c with total := x } :=
  ⟨h.h01, h.h12, h.h2, h.l, h.r, h.dr⟩

private theorem fits_scoreGo (g : Config) (t : Str) (all cs : List Cand) : ∀ scored, (∀ c ∈ scored, Fits g t c) → (∀ c ∈ cs, Fits g t c) →
    ∀ c ∈ scoreGo g all scored cs, Fits g t c := by
  induction cs with
  | nil => intro scored h _; exact h
  | cons c cs ih =>
    intro scored h hc
    simp only [scoreGo]
    split
    · exact ih scored h (fun d hd => hc d (by simp [hd]))
    · refine ih _ ?_ (fun d hd => hc d (by simp [hd]))
      intro d hd
      rcases List.mem_append.1 hd with hd | hd
      · exact h d hd
      · simp at hd; subst hd; exact fits_total (hc c (by simp)) _

private theorem findGo_mem (n : Nat) (l : List Cand) : ∀ c ∈ findGo n l, c ∈ l := by
  induction n generalizing l with
  | zero => simp [findGo]
  | succ n ih =>
    cases l with
    | nil => simp [findGo]
    | cons a l =>
      simp only [findGo]
      intro c hc
      rcases List.mem_cons.1 hc with rfl | hc
      · exact List.mem_cons_self
      · exact List.mem_cons_of_mem _ (List.mem_filter.1 (ih _ c hc)).1

private theorem findGo_apart (n : Nat) (l : List Cand) : (findGo n l).Pairwise (fun c d => ¬ (c.p0 < d.p2 ∧ d.p0 < c.p2)) := by
  induction n generalizing l with
  | zero => simp [findGo]
  | succ n ih =>
    cases l with
    | nil => simp [findGo]
    | cons a l =>
      simp only [findGo]
      refine List.Pairwise.cons ?_ (ih _)
      intro d hd
      have := (List.mem_filter.1 (findGo_mem _ _ d hd)).2
      simp at this
      omega

private theorem le_pre : TotalPre (fun a b : Cand => decide (a.p0 ≤ b.p0)) := by
  refine ⟨fun a b c h1 h2 => ?_, fun a b => ?_⟩
  · simp only [decide_eq_true_eq] at *; omega
  · simp only [decide_eq_true_eq] at *; omega

private theorem findBest_spec (g : Config) (t : Str) (cs : List Cand) (h : ∀ c ∈ cs, Fits g t c) :
    (∀ c ∈ findBest cs, Fits g t c) ∧ (findBest cs).Pairwise (fun c d => c.p2 ≤ d.p0) := by
  have hf : ∀ c ∈ findBest cs, Fits g t c := fun c hc => h c (mem_sorted.1 (findGo_mem _ _ c (mem_sorted.1 hc)))
  refine ⟨hf, ?_⟩
  have h1 := pairwise_sorted le_pre (findGo cs.length (sorted (fun a b => decide (b.total ≤ a.total)) cs))
  have h2 : (findBest cs).Pairwise (fun c d => ¬ (c.p0 < d.p2 ∧ d.p0 < c.p2)) := by
    refine (List.Perm.pairwise_iff ?_ (sorted_perm _ _)).2 (findGo_apart _ _)
    intro x y hxy h; exact hxy ⟨h.2, h.1⟩
  refine List.Pairwise.imp_of_mem ?_ (List.Pairwise.and h1 h2)
  intro c d hc hd ⟨h3, h4⟩
  have k1 := hf c hc; have k2 := hf d hd
  have := k1.h01; have := k1.h12; have := k2.h01; have := k2.h12
  simp only [decide_eq_true_eq] at h3
  omega

/-- what a candidate spells -/
private def spell (c : Cand) : Str := c.l ++ c.r
private def spellAll (cs : List Cand) : Str := (cs.map spell).flatten
@[simp] private theorem spellAll_append (a b : List Cand) : spellAll (a ++ b) = spellAll a ++ spellAll b := by simp [spellAll]
@[simp] private theorem spellAll_cons (a : Cand) (b : List Cand) : spellAll (a :: b) = spell a ++ spellAll b := by simp [spellAll]
@[simp] private theorem spellAll_nil : spellAll [] = [] := rfl

private def NoSpace (t : Str) : Prop := ∀ c ∈ t, isSpace c = false

private theorem base_tokens (g : Config) (t : Str) (hs : NoSpace t) :
    ∃ ts, MaxScore.tokenize g.Dr 10 0 t = .ok ts ∧ ts.flatten = t := by
  obtain ⟨ts, h1, _, h3⟩ := C14_lossless g.Dr 10 (by omega) 0 t
  refine ⟨ts, h1, ?_⟩
  rw [h3, List.filter_eq_self]
  intro c hc
  have := hs c hc
  rw [decide_eq_true_iff, ← isSpace_iff, this]; simp

private theorem baseSub_spec (g : Config) (t : Str) (b : Nat) (hs : NoSpace t) (out : List Cand) (h : baseSub g t b = .ok out) :
    spellAll out = t ∧ ∀ c ∈ out, c.p0 = b := by
  obtain ⟨ts, h1, h2⟩ := base_tokens g t hs
  simp only [baseSub, h1, bind, Except.bind] at h
  clear h1
  rw [← h2]
  clear h2 hs
  induction ts generalizing out with
  | nil => simp [pure, Except.pure] at h; subst h; simp
  | cons w ts ih =>
    rw [List.mapM_cons] at h
    simp only [bind, Except.bind] at h
    split at h
    · cases h
    · rename_i v hv
      split at hv
      · cases hv
      · simp only [Except.ok.injEq] at hv
        split at h
        · cases h
        · rename_i vs hvs
          simp only [pure, Except.pure, Except.ok.injEq] at h
          subst h
          obtain ⟨i1, i2⟩ := ih vs hvs
          constructor
          · rw [spellAll_cons, i1, ← hv]; simp [spell]
          · intro c hc
            rcases List.mem_cons.1 hc with rfl | hc
            · rw [← hv]
            · exact i2 c hc

private theorem nospace_slice {t : Str} (h : NoSpace t) (a b : Nat) : NoSpace (slice t a b) :=
  fun c hc => h c (List.mem_of_mem_take (List.mem_of_mem_drop hc))
private theorem nospace_drop {t : Str} (h : NoSpace t) (a : Nat) : NoSpace (t.drop a) := fun c hc => h c (List.mem_of_mem_drop hc)

private theorem slice_join' (s : Str) {a b c : Nat} (h1 : a ≤ b) (h2 : b ≤ c) : slice s a b ++ slice s b c = slice s a c := by
  unfold slice
  have : s.take b = (s.take c).take b := by rw [List.take_take]; congr 1; omega
  rw [this, List.drop_take]
  have : (s.take c).drop b = ((s.take c).drop a).drop (b - a) := by rw [List.drop_drop]; congr 1; omega
  rw [this, List.take_append_drop]

private theorem spell_fits {g : Config} {t : Str} {c : Cand} (h : Fits g t c) : spell c = slice t c.p0 c.p2 := by
  unfold spell; rw [h.l, h.r]; exact slice_join' t (by have := h.h01; omega) h.h12

/-- the words and the gap pieces in text order, as blocks with their position -/
private def blocksW : List Cand → List (List Cand) → List (Nat × List Cand)
  | w :: w' :: ws, g :: gs => (w.p0, [w]) :: ((if w.p2 = w'.p0 then [] else [(w.p2, g)]) ++ blocksW (w' :: ws) gs)
  | [w], _ => [(w.p0, [w])]
  | _, _ => []

private def gapB : List Cand → List (List Cand) → List (Nat × List Cand)
  | w :: w' :: ws, g :: gs => (if w.p2 = w'.p0 then [] else [(w.p2, g)]) ++ gapB (w' :: ws) gs
  | _, _ => []

/-- the pieces for each gap are what the base tokenizer makes of it -/
private def GapsOk (t : Str) : List Cand → List (List Cand) → Prop
  | w :: w' :: ws, g :: gs =>
    (if w.p2 = w'.p0 then g = [] else spellAll g = slice t w.p2 w'.p0 ∧ ∀ c ∈ g, c.p0 = w.p2) ∧ GapsOk t (w' :: ws) gs
  | [_], gs => gs = []
  | [], gs => gs = []
  | _ :: _ :: _, [] => False

private theorem blocks_perm (t : Str) : ∀ (ws : List Cand) (gs : List (List Cand)), GapsOk t ws gs →
    (blocksW ws gs).Perm (ws.map (fun w => (w.p0, [w])) ++ gapB ws gs)
  | [], gs, _ => by simp [blocksW, gapB]
  | [w], gs, _ => by simp [blocksW, gapB]
  | w :: w' :: ws, [], h => by simp [GapsOk] at h
  | w :: w' :: ws, g :: gs, h => by
    have ih := blocks_perm t (w' :: ws) gs h.2
    simp only [blocksW, gapB, List.map_cons, List.cons_append]
    refine List.Perm.cons _ ?_
    refine ((List.Perm.append_left _ ih).trans ?_)
    rw [List.perm_iff_count]
    intro x
    simp only [List.count_append, List.map_cons, List.count_cons]
    omega

private theorem gapB_flat (t : Str) : ∀ (ws : List Cand) (gs : List (List Cand)), GapsOk t ws gs → (gapB ws gs).flatMap (·.2) = gs.flatten
  | [], gs, h => by simp [GapsOk] at h; subst h; rfl
  | [w], gs, h => by simp [GapsOk] at h; subst h; rfl
  | w :: w' :: ws, [], h => by simp [GapsOk] at h
  | w :: w' :: ws, g :: gs, h => by
    have ih := gapB_flat t (w' :: ws) gs h.2
    have h1 := h.1
    simp only [gapB, List.flatMap_append, ih, List.flatten_cons]
    by_cases he : w.p2 = w'.p0
    · rw [if_pos he] at h1 ⊢; subst h1; rfl
    · rw [if_neg he]; simp

private theorem blocks_facts (g : Config) (t : Str) : ∀ (ws : List Cand) (gs : List (List Cand)) (a z : Cand), GapsOk t ws gs →
    (∀ c ∈ ws, Fits g t c) → ws.Pairwise (fun c d => c.p2 ≤ d.p0) → ws.head? = some a → ws.getLast? = some z →
    a.p0 ≤ z.p0 ∧
    (blocksW ws gs).Pairwise (fun b c => b.1 < c.1) ∧
    (∀ b ∈ blocksW ws gs, a.p0 ≤ b.1 ∧ b.1 ≤ z.p0 ∧ ∀ x ∈ b.2, x.p0 = b.1) ∧
    spellAll ((blocksW ws gs).flatMap (·.2)) = slice t a.p0 z.p2
  | [], gs, a, z, _, _, _, ha, _ => by simp at ha
  | [w], gs, a, z, _, hf, _, ha, hz => by
    simp at ha hz; subst ha; subst hz
    simp [blocksW, spell_fits (hf w (by simp))]
  | w :: w' :: ws, [], a, z, h, _, _, _, _ => by simp [GapsOk] at h
  | w :: w' :: ws, gp :: gs, a, z, h, hf, hp, ha, hz => by
    simp at ha; subst ha
    have hz' : (w' :: ws).getLast? = some z := by simpa using hz
    obtain ⟨i0, i1, i2, i3⟩ := blocks_facts g t (w' :: ws) gs w' z h.2 (fun c hc => hf c (by simp [hc])) hp.of_cons rfl hz'
    have hww : w.p2 ≤ w'.p0 := List.rel_of_pairwise_cons hp (by simp)
    have hfw := hf w (by simp)
    have k1 := hfw.h01; have k2 := hfw.h12
    have hzf := hf z (List.mem_of_getLast? hz)
    have k3 := hzf.h01; have k4 := hzf.h12
    refine ⟨by omega, ?_, ?_, ?_⟩
    · simp only [blocksW]
      by_cases he : w.p2 = w'.p0
      · rw [if_pos he]
        refine .cons ?_ (by simpa using i1)
        intro b hb
        have := (i2 b (by simpa using hb)).1
        show w.p0 < b.1
        omega
      · rw [if_neg he]
        refine .cons ?_ (.cons ?_ i1)
        · intro b hb
          rcases List.mem_cons.1 hb with rfl | hb
          · show w.p0 < w.p2; omega
          · have := (i2 b (by simpa using hb)).1
            show w.p0 < b.1; omega
        · intro b hb
          have := (i2 b (by simpa using hb)).1
          show w.p2 < b.1; omega
    · simp only [blocksW]
      intro b hb
      rcases List.mem_cons.1 hb with rfl | hb
      · refine ⟨Nat.le_refl _, by show w.p0 ≤ z.p0; omega, by simp⟩
      · rcases List.mem_append.1 hb with hb | hb
        · have h1 := h.1
          by_cases he : w.p2 = w'.p0
          · rw [if_pos he] at hb; simp at hb
          · rw [if_neg he] at hb h1; simp at hb; subst hb
            refine ⟨by show w.p0 ≤ w.p2; omega, by show w.p2 ≤ z.p0; omega, h1.2⟩
        · obtain ⟨j1, j2, j3⟩ := i2 b hb
          exact ⟨by omega, j2, j3⟩
    · simp only [blocksW, List.flatMap_cons, List.flatMap_append, spellAll_append, i3, spellAll_cons, spellAll_nil, List.append_nil, spell_fits hfw]
      have h1 := h.1
      by_cases he : w.p2 = w'.p0
      · rw [if_pos he]
        simp only [List.flatMap_nil, spellAll_nil, List.nil_append]
        rw [he]; exact slice_join' t (by omega) (by omega)
      · rw [if_neg he] at h1 ⊢
        simp only [List.flatMap_cons, List.flatMap_nil, List.append_nil]
        rw [h1.1, slice_join' t (by omega : w.p2 ≤ w'.p0) (by omega), slice_join' t (by omega) (by omega)]

private theorem inter_ok (g : Config) (t : Str) (hs : NoSpace t) : ∀ (ws : List Cand) (inter : List (List Cand)),
    interSubs g t ws = .ok inter →
    GapsOk t ws inter
  | [], inter, h => by simp [interSubs, pure, Except.pure] at h; subst h; simp [GapsOk]
  | [w], inter, h => by simp [interSubs, pure, Except.pure] at h; subst h; simp [GapsOk]
  | w :: w' :: ws, inter, h => by
    simp only [interSubs, List.tail_cons, List.zip_cons_cons, List.mapM_cons, bind, Except.bind] at h
    split at h
    · cases h
    · rename_i v hv
      split at h
      · cases h
      · rename_i vs hvs
        simp only [pure, Except.pure, Except.ok.injEq] at h
        subst h
        have ih := inter_ok g t hs (w' :: ws) vs hvs
        refine ⟨?_, ih⟩
        by_cases he : w.p2 = w'.p0
        · rw [if_pos he] at hv ⊢; simp at hv; exact hv
        · rw [if_neg he] at hv ⊢
          exact baseSub_spec g _ _ (nospace_slice hs _ _) v hv

private theorem postprocess_spec (g : Config) (t : Str) (hs : NoSpace t) (ws : List Cand) (a z : Cand)
    (hf : ∀ c ∈ ws, Fits g t c) (hp : ws.Pairwise (fun c d => c.p2 ≤ d.p0)) (ha : ws.head? = some a) (hz : ws.getLast? = some z)
    (out : List Cand) (h : postprocess g t ws = .ok out) : spellAll out = t.take z.p2 ++ t.drop z.p1 := by
  have haf := hf a (List.mem_of_head? ha)
  have hzf := hf z (List.mem_of_getLast? hz)
  simp only [postprocess, bind, Except.bind] at h
  split at h
  · cases h
  · rename_i first hfirst
    simp only [firstSub, ha] at hfirst
    split at h
    · cases h
    · rename_i last hlast
      simp only [lastSub, hz] at hlast
      split at h
      · cases h
      · rename_i inter hinter
        simp only [Except.ok.injEq] at h
        have hG : GapsOk t ws inter := inter_ok g t hs ws inter hinter
        obtain ⟨b0, b1, b2, b3⟩ := blocks_facts g t ws inter a z hG hf hp ha hz
        -- the first and last blocks
        let fB : List (Nat × List Cand) := if a.p0 > 0 then [(0, first)] else []
        let lB : List (Nat × List Cand) := if z.p1 < t.length then [(z.p1, last)] else []
        have hfirst' : spellAll first = slice t 0 a.p0 ∧ fB.flatMap (·.2) = first ∧ ∀ b ∈ fB, b.1 = 0 ∧ 0 < a.p0 ∧ ∀ x ∈ b.2, x.p0 = b.1 := by
          by_cases h0 : a.p0 > 0
          · rw [if_pos h0] at hfirst
            obtain ⟨k1, k2⟩ := baseSub_spec g _ _ (nospace_slice hs _ _) first hfirst
            refine ⟨k1, by simp [fB, h0], ?_⟩
            intro b hb; simp [fB, h0] at hb; subst hb; exact ⟨rfl, h0, k2⟩
          · rw [if_neg h0] at hfirst
            simp only [Except.ok.injEq] at hfirst
            subst hfirst
            have : a.p0 = 0 := by omega
            refine ⟨by rw [this]; simp [slice], by simp [fB, h0], by simp [fB, h0]⟩
        have hlast' : spellAll last = t.drop z.p1 ∧ lB.flatMap (·.2) = last ∧ ∀ b ∈ lB, b.1 = z.p1 ∧ ∀ x ∈ b.2, x.p0 = b.1 := by
          by_cases h0 : z.p1 < t.length
          · rw [if_pos h0] at hlast
            obtain ⟨k1, k2⟩ := baseSub_spec g _ _ (nospace_drop hs _) last hlast
            refine ⟨k1, by simp [lB, h0], ?_⟩
            intro b hb; simp [lB, h0] at hb; subst hb; exact ⟨rfl, k2⟩
          · rw [if_neg h0] at hlast
            simp only [Except.ok.injEq] at hlast
            subst hlast
            refine ⟨by rw [List.drop_eq_nil_of_le (by omega)]; rfl, by simp [lB, h0], by simp [lB, h0]⟩
        have hsort := sorted_blocks Cand.p0 (ws.map (fun w => (w.p0, [w])) ++ ((fB ++ lB) ++ gapB ws inter)) (fB ++ (blocksW ws inter ++ lB)) ?_ ?_ ?_
        · have hflat : (ws.map (fun w => (w.p0, [w])) ++ ((fB ++ lB) ++ gapB ws inter)).flatMap (·.2) = ws ++ ((first ++ last) ++ inter.flatten) := by
            rw [List.flatMap_append, List.flatMap_append, List.flatMap_append, hfirst'.2.1, hlast'.2.1, gapB_flat t ws inter hG]
            congr 1
            simp [List.flatMap_map]
          rw [hflat] at hsort
          rw [← h, hsort, List.flatMap_append, List.flatMap_append, spellAll_append, spellAll_append, hfirst'.2.1, hlast'.2.1,
            hfirst'.1, hlast'.1, b3, ← List.append_assoc, slice_join' t (by omega) (by have := hzf.h01; have := hzf.h12; omega)]
          simp [slice]
        · refine List.Perm.symm ?_
          refine (List.Perm.append_left fB (List.Perm.append_right lB (blocks_perm t ws inter hG))).trans ?_
          rw [List.perm_iff_count]
          intro x
          simp only [List.count_append]
          omega
        · intro b hb
          rcases List.mem_append.1 hb with hb | hb
          · obtain ⟨w, _, rfl⟩ := List.mem_map.1 hb; simp
          · rcases List.mem_append.1 hb with hb | hb
            · rcases List.mem_append.1 hb with hb | hb
              · exact (hfirst'.2.2 b hb).2.2
              · exact (hlast'.2.2 b hb).2
            · have : b ∈ blocksW ws inter := (blocks_perm t ws inter hG).mem_iff.2 (List.mem_append_right _ hb)
              exact (b2 b this).2.2
        · rw [List.pairwise_append, List.pairwise_append]
          refine ⟨?_, ⟨b1, ?_, ?_⟩, ?_⟩
          · by_cases h0 : a.p0 > 0 <;> simp [fB, h0]
          · by_cases h0 : z.p1 < t.length <;> simp [lB, h0]
          · intro x hx y hy
            have := (b2 x hx).2.1
            have := (hlast'.2.2 y hy).1
            have := hzf.h01
            omega
          · intro x hx y hy
            have k := hfirst'.2.2 x hx
            rcases List.mem_append.1 hy with hy | hy
            · have := (b2 y hy).1; omega
            · have := (hlast'.2.2 y hy).1
              have := hzf.h01
              omega

private theorem tokens_spell (post : List Cand) :
    (((post.flatMap (fun p => [(p.l, Tag.L), (p.r, Tag.R)])).filter (fun w => w.1 ≠ [])).map (·.1)).flatten = spellAll post := by
  induction post with
  | nil => rfl
  | cons c cs ih =>
    rw [List.flatMap_cons, List.filter_append, List.map_append, List.flatten_append, ih, spellAll_cons]
    congr 1
    unfold spell
    by_cases h1 : c.l = [] <;> by_cases h2 : c.r = [] <;> simp [h1, h2]

private theorem eojeol_spec (g : Config) (t : Str) (hs : NoSpace t) (out : List (Str × Tag)) (h : tokenizeEojeol g t = .ok out) :
    ∃ a r z : Str, t = a ++ r ++ z ∧ (out.map (·.1)).flatten = a ++ r ++ r ++ z ∧ (r ≠ [] → Dict.has g.Dr r = true) := by
  simp only [tokenizeEojeol, bind, Except.bind] at h
  split at h
  · cases h
  · rename_i cs hcs
    have hfit : ∀ c ∈ cs, Fits g t c := by
      intro c hc
      have := removeGo_subset g _ cs hcs c hc
      exact fits_init g t c (mem_sorted.1 (mem_sorted.1 this))
    have hsc : ∀ c ∈ score g cs, Fits g t c :=
      fits_scoreGo g t cs (sorted scoreLe cs) [] (by simp) (fun c hc => hfit c (mem_sorted.1 hc))
    obtain ⟨f1, f2⟩ := findBest_spec g t (score g cs) hsc
    split at h
    · cases h
    · rename_i post hpost
      simp only [Except.ok.injEq] at h
      subst h
      rw [tokens_spell]
      unfold choosePost at hpost
      by_cases hb : findBest (score g cs) = []
      · rw [if_neg (by simpa using hb)] at hpost
        obtain ⟨k, _⟩ := baseSub_spec g t 0 hs post hpost
        exact ⟨t, [], [], by simp, by simp [k], by simp⟩
      · rw [if_pos hb] at hpost
        obtain ⟨a, ha⟩ : ∃ a, (findBest (score g cs)).head? = some a := ⟨_, List.head?_eq_some_head hb⟩
        obtain ⟨z, hz⟩ : ∃ z, (findBest (score g cs)).getLast? = some z := ⟨_, List.getLast?_eq_some_getLast hb⟩
        have hzf := f1 z (List.mem_of_getLast? hz)
        rw [postprocess_spec g t hs _ a z f1 f2 ha hz post hpost]
        have h2 : t.take z.p2 = t.take z.p1 ++ z.r := by
          rw [hzf.r]
          have := slice_join' t (Nat.zero_le z.p1) hzf.h12
          simp only [slice, List.drop_zero] at this ⊢
          exact this.symm
        have h1 : t.drop z.p1 = z.r ++ t.drop z.p2 := by
          have : t.take z.p2 ++ t.drop z.p2 = t.take z.p1 ++ t.drop z.p1 := by simp
          rw [h2, List.append_assoc] at this
          exact (List.append_cancel_left this).symm
        refine ⟨t.take z.p1, z.r, t.drop z.p2, ?_, ?_, hzf.dr⟩
        · rw [← h2]; simp
        · rw [h2, h1]; simp

private theorem mapM_forall₂ {α β} (f : α → PyM β) : ∀ (l : List α) (out : List β), l.mapM f = .ok out → List.Forall₂ (fun a b => f a = .ok b) l out
  | [], out, h => by simp [pure, Except.pure] at h; subst h; exact .nil
  | a :: l, out, h => by
    rw [List.mapM_cons] at h
    simp only [bind, Except.bind] at h
    split at h
    · cases h
    · rename_i v hv
      split at h
      · cases h
      · rename_i vs hvs
        simp only [pure, Except.pure, Except.ok.injEq] at h
        subst h
        exact .cons hv (mapM_forall₂ f l vs hvs)

/-- Whatever the dictionaries and thresholds, if `tokenize` returns at all, then eojeol by eojeol the tokens spell the
    eojeol with one piece `r` repeated, where `r` is empty or an entry of the R dictionary. (So it is a tokenisation
    exactly when `r` is empty; what is missing from C20 is that `r` need not be empty and that the call may raise.) -/
theorem C20_spells_up_to_repeat (g : Config) (sent : List Char) (out : List (List Char × Tag))
    (h : MaxLR.tokenize g sent = .ok out) :
    ∃ outs : List (List (List Char × Tag)), out = outs.flatten ∧
      List.Forall₂ (fun w ts => ∃ a r z : List Char, w = a ++ r ++ z ∧ (ts.map (·.1)).flatten = a ++ r ++ r ++ z ∧
        (r ≠ [] → Dict.has g.Dr r = true)) (splitWs sent) outs := by
  simp only [MaxLR.tokenize, bind, Except.bind] at h
  split at h
  · cases h
  · rename_i ws hws
    simp only [Except.ok.injEq] at h
    refine ⟨ws, h.symm, ?_⟩
    have h1 := mapM_forall₂ _ _ _ hws
    have h2 := splitWs_words sent
    generalize splitWs sent = vs at h1 h2
    clear hws h
    induction h1 with
    | nil => exact .nil
    | cons hab _ ih => exact .cons (eojeol_spec g _ (h2 _ (by simp)).2 _ hab) (ih (fun x hx => h2 x (by simp [hx])))

private theorem existLonger_ok (g : Config) (c : Cand) (cs : List Cand) (h : ∀ d ∈ cs, 0 ≤ d.sl) : ∃ b, existLonger g c cs = .ok b := by
  induction cs with
  | nil => exact ⟨_, rfl⟩
  | cons d cs ih =>
    have ih' := ih (fun x hx => h x (by simp [hx]))
    have hd := h d (by simp)
    simp only [existLonger]
    split
    · exact ih'
    · split
      · exact ⟨_, rfl⟩
      · split
        · rw [if_neg (by intro h0; linarith)]
          split
          · exact ⟨_, rfl⟩
          · exact ih'
        · exact ih'

private theorem removeGo_ok (g : Config) (cs : List Cand) (h : ∀ d ∈ cs, 0 ≤ d.sl) : ∃ out, removeSubsetGo g cs = .ok out := by
  induction cs with
  | nil => exact ⟨_, rfl⟩
  | cons d cs ih =>
    obtain ⟨o, ho⟩ := ih (fun x hx => h x (by simp [hx]))
    obtain ⟨b, hb⟩ := existLonger_ok g d cs (fun x hx => h x (by simp [hx]))
    exact ⟨_, by simp [removeSubsetGo, hb, ho, bind, Except.bind]; rfl⟩

private theorem baseSub_ok (g : Config) (hr : g.Dr = []) (t : Str) (b : Nat) (hs : NoSpace t) : ∃ out, baseSub g t b = .ok out := by
  obtain ⟨ts, h1, h2⟩ := base_tokens g t hs
  simp only [baseSub, h1, bind, Except.bind]
  clear h1 h2 hs
  rw [hr]
  clear hr
  induction ts with
  | nil => exact ⟨[], rfl⟩
  | cons w ts ih =>
    obtain ⟨o, ho⟩ := ih
    rw [List.mapM_cons]
    simp only [bind, Except.bind]
    rw [if_neg (by simp [Dict.has])]
    simp only
    rw [ho]
    exact ⟨_, rfl⟩

private theorem postprocess_ok (g : Config) (hr : g.Dr = []) (t : Str) (hs : NoSpace t) (ws : List Cand) : ∃ out, postprocess g t ws = .ok out := by
  have h1 : ∃ o, firstSub g t ws = .ok o := by
    unfold firstSub
    split
    · split
      · exact baseSub_ok g hr _ _ (nospace_slice hs _ _)
      · exact ⟨_, rfl⟩
    · exact ⟨_, rfl⟩
  have h2 : ∃ o, lastSub g t ws = .ok o := by
    unfold lastSub
    split
    · split
      · exact baseSub_ok g hr _ _ (nospace_drop hs _)
      · exact ⟨_, rfl⟩
    · exact ⟨_, rfl⟩
  have h3 : ∃ o, interSubs g t ws = .ok o := by
    unfold interSubs
    generalize ws.zip ws.tail = ps
    induction ps with
    | nil => exact ⟨[], rfl⟩
    | cons p ps ih =>
      obtain ⟨o, ho⟩ := ih
      have : ∃ v, (if p.1.p2 = p.2.p0 then (.ok [] : PyM (List Cand)) else baseSub g (slice t p.1.p2 p.2.p0) p.1.p2) = .ok v := by
        split
        · exact ⟨_, rfl⟩
        · exact baseSub_ok g hr _ _ (nospace_slice hs _ _)
      obtain ⟨v, hv⟩ := this
      rw [List.mapM_cons]
      simp only [hv, bind, Except.bind, ho]
      exact ⟨_, rfl⟩
  obtain ⟨o1, h1⟩ := h1
  obtain ⟨o2, h2⟩ := h2
  obtain ⟨o3, h3⟩ := h3
  simp only [postprocess, h1, h2, h3, bind, Except.bind]
  exact ⟨_, rfl⟩

private theorem sl_nonneg (g : Config) (t : Str) (hl : ∀ e ∈ g.Dl, 0 ≤ e.2) : ∀ c ∈ initLR g t, 0 ≤ c.sl := by
  intro c hc
  simp only [initLR, List.mem_flatMap, List.mem_filterMap] at hc
  obtain ⟨⟨l, b, e, lenL⟩, _, lenR, _, h⟩ := hc
  dsimp only at h
  split at h
  · cases h
  · split at h
    · cases h
    · simp only [Option.some.injEq] at h
      subst h
      dsimp only
      show (0 : Rat) ≤ (Dict.get? g.Dl l).getD 0
      cases hg : Dict.get? g.Dl l with
      | none => simp
      | some v => simpa using hl _ (Dict.mem_of_get? hg)

/-- With an empty R dictionary (and non-negative L scores) `tokenize` never raises and its tokens concatenate to the
    sentence without whitespace. -/
theorem C20_lossless_without_R (g : Config) (hr : g.Dr = []) (hl : ∀ e ∈ g.Dl, 0 ≤ e.2) (sent : List Char) :
    ∃ out, MaxLR.tokenize g sent = .ok out ∧ (out.map (·.1)).flatten = sent.filter (fun c => c.toNat ∉ whitespace) := by
  have hone : ∀ t, NoSpace t → ∃ o, tokenizeEojeol g t = .ok o := by
    intro t hs
    obtain ⟨cs, hcs⟩ := removeGo_ok g (sorted (fun a b => decide (b.sl ≤ a.sl)) (MaxLR.initCands g t))
      (fun c hc => sl_nonneg g t hl c (mem_sorted.1 (mem_sorted.1 hc)))
    have : removeSubset g (MaxLR.initCands g t) = .ok cs := hcs
    simp only [tokenizeEojeol, this, bind, Except.bind]
    split
    · rename_i x hx
      exfalso
      unfold choosePost at hx
      split at hx
      · obtain ⟨o, ho⟩ := postprocess_ok g hr t hs (findBest (score g cs)); rw [ho] at hx; cases hx
      · obtain ⟨o, ho⟩ := baseSub_ok g hr t 0 hs; rw [ho] at hx; cases hx
    · exact ⟨_, rfl⟩
  have hall : ∀ ws : List Str, (∀ w ∈ ws, NoSpace w) → ∃ os, ws.mapM (tokenizeEojeol g) = .ok os := by
    intro ws
    induction ws with
    | nil => intro _; exact ⟨[], rfl⟩
    | cons w ws ih =>
      intro h
      obtain ⟨o, ho⟩ := hone w (h w (by simp))
      obtain ⟨os, hos⟩ := ih (fun x hx => h x (by simp [hx]))
      rw [List.mapM_cons]
      simp only [ho, hos, bind, Except.bind]
      exact ⟨_, rfl⟩
  obtain ⟨os, hos⟩ := hall (splitWs sent) (fun w hw => splitWs_nospace hw)
  have htok : MaxLR.tokenize g sent = .ok os.flatten := by simp [MaxLR.tokenize, hos, bind, Except.bind]
  refine ⟨_, htok, ?_⟩
  obtain ⟨outs, h1, h2⟩ := C20_spells_up_to_repeat g sent _ htok
  rw [h1]
  have hfil : sent.filter (fun c => decide (c.toNat ∉ whitespace)) = (splitWs sent).flatten := by
    rw [splitWs_flatten]
    congr 1
    funext c
    have := isSpace_iff c
    rw [Bool.eq_iff_iff, decide_eq_true_iff, Bool.not_eq_true', ← this]
    simp
  rw [hfil]
  clear h1 htok hos hfil
  generalize splitWs sent = vs at h2
  induction h2 with
  | nil => rfl
  | cons h _ ih =>
    obtain ⟨a, r, z, e1, e2, e3⟩ := h
    have : r = [] := by
      cases r with
      | nil => rfl
      | cons c r => have := e3 (by simp); rw [hr] at this; cases this
    subst this
    rw [List.flatten_cons, List.map_append, List.flatten_append, ih, List.flatten_cons, e2, e1]
    simp

private def plain (Dl Dr : Dict Str Rat) : Config := make Dl Dr [] [] (3/10) (1/2) (1/2) (3/10)

example : (plain [("데이터".toList, 1/2), ("마이닝".toList, 2/5)] []).Dr = [] ∧
    MaxLR.tokenize (plain [("데이터".toList, 1/2), ("마이닝".toList, 2/5)] []) "빅데이터마이닝을 공부".toList =
      .ok [("빅".toList, .L), ("데이터".toList, .L), ("마이닝".toList, .L), ("을".toList, .L), ("공부".toList, .L)] := by
  decide +kernel

/-- C20 is false: with the R dictionary in use, the R of the last pair is output twice if more text follows, and the
    plainest case, an L followed by an R, raises AttributeError. -/
theorem C20_violated :
    MaxLR.tokenize (plain [("학생".toList, 1)] [("은".toList, 1)]) "학생은요".toList =
      .ok [("학생".toList, .L), ("은".toList, .R), ("은요".toList, .L)] ∧
    MaxLR.tokenize (plain [("학생".toList, 1)] [("은".toList, 1)]) "학생은".toList = .error .attributeError := by
  decide +kernel

/-- ... and in general: a one- or two-letter entry of the R dictionary standing alone raises, if no L word is known. -/
theorem C20_lone_R_raises (g : Config) (w : List Char) (hw : w ≠ []) (hs : ∀ c ∈ w, isSpace c = false) (hl : w.length ≤ 2)
    (hd : g.Dl = []) (hr : Dict.has g.Dr w = true) : MaxLR.tokenize g w = .error .attributeError := by
  have h1 : splitWs w = [w] := by
    have := splitWs_join [w] (by intro x hx; simp at hx; subst hx; exact ⟨hw, hs⟩)
    simpa [join] using this
  have h2 : MaxLR.initL g w = [] := by
    unfold initL
    rw [List.flatMap_eq_nil_iff]
    intro b _
    rw [List.filterMap_eq_nil_iff]
    intro e _
    simp [hd, Dict.has]
  have h3 : MaxLR.initCands g w = [] := by simp [MaxLR.initCands, initLR, h2]
  have h4 : baseSub g w 0 = .error .attributeError := by
    simp [baseSub, MaxScore.tokenize, MaxScore.tokenizeSpans, h1, MaxScore.recursiveTokenize, hl, bind, Except.bind,
      pure, Except.pure, List.mapM_cons, hr]
  simp [MaxLR.tokenize, h1, tokenizeEojeol, h3, removeSubset, removeSubsetGo, score, scoreGo, findBest, MaxLR.findGo, choosePost, h4, bind, Except.bind,
    List.mapM_cons]

end Props
