import Verif.Proofs.PocketFill
import Verif.Props.PocketRegions

/-! # C42: filling a pocket with contours -/

namespace CQ

instance : Inhabited PathFace := ⟨⟨[], [], 0⟩⟩

theorem nextOuters_follows {eng : Clipper} {pocket : PathFace} {step : ℚ} {precision : ℕ} {p : List Pt}
    {cs : List (List Pt)} (h : nextOuters eng pocket step precision p = .ok cs) :
    Follows eng pocket step precision p cs := by
  unfold nextOuters offsetPath at h
  obtain ⟨cands, h1, h⟩ := bind_ok.mp h
  obtain ⟨raw, h2, h1⟩ := bind_ok.mp h1
  have h3 : List.Forall₂ ClosedAs (raw.filter (fun q => decide (q ≠ []))) cands :=
    (mapE_ok.mp h1).imp (fun _ _ h => closedAs_of h)
  refine ⟨raw, cands, h2, h3, ?_⟩
  by_cases hc : cands ≠ [] ∧ pocket.inners ≠ []
  · rw [if_pos hc] at h
    rw [if_neg (by tauto)]
    obtain ⟨faces, h4, h⟩ := bind_ok.mp h
    unfold differencePolyTree at h4
    obtain ⟨tree, h5, h6⟩ := bind_ok.mp h4
    refine ⟨tree, h5, ?_⟩
    cases h
    rw [List.forall₂_map_right_iff]
    refine (mapE_ok.mp h6).imp (fun n f hf => ?_)
    obtain ⟨o, ho, hf⟩ := bind_ok.mp hf
    obtain ⟨is, _, hf⟩ := bind_ok.mp hf
    cases hf
    exact closedAs_of ho
  · rw [if_neg hc] at h
    rw [if_pos (by tauto)]
    cases h; rfl

theorem nextFaces_follows {eng : Clipper} {pocket : PathFace} {step : ℚ} {precision : ℕ} {p : PathFace}
    {cs : List PathFace} (h : nextFaces eng pocket step precision p = .ok cs) :
    Follows eng pocket step precision p.outer (cs.map PathFace.outer) := by
  obtain ⟨os, h1, h⟩ := bind_ok.mp h
  cases h
  rw [List.map_map]
  have : (PathFace.outer ∘ fun o => (⟨o, [], pocket.depth⟩ : PathFace)) = id := rfl
  rw [this, List.map_id]
  exact nextOuters_follows h1

/-- C42, completeness.  Whenever filling a pocket ends, the contours in the resulting sequences are exactly the outline
of the pocket and everything obtained from it by repeated shrinking and removal of the holes, each once; they are at the
depth of the pocket; no sequence is empty, and within a sequence each contour is followed by the one it was obtained
from. -/
theorem C42_complete {eng : Clipper} {fuel : ℕ} {pocket : PathFace} {step : ℚ} {precision : ℕ}
    {seqs : List (List PathFace)} (h : fillPocket eng fuel pocket step precision = .ok seqs) :
    ∃ contours, Unfolds (Follows eng pocket step precision) [pocket.outer] contours ∧
      (seqs.flatten.map PathFace.outer).Perm contours ∧
      (∀ f ∈ seqs.flatten, f.depth = pocket.depth ∧ f.inners = []) ∧
      ∀ s ∈ seqs, s ≠ [] ∧
        List.IsChain (fun a b => ∃ cs, Follows eng pocket step precision b.outer cs ∧ a.outer ∈ cs) s := by
  unfold fillPocket at h
  obtain ⟨t, ht, h⟩ := bind_ok.mp h
  cases h
  obtain ⟨inv, ys, hu, hp⟩ := fillLoop_sound (init_inv (⟨pocket.outer, [], pocket.depth⟩ : PathFace)) ht
  obtain ⟨g1, -, g3⟩ := C41_sequences t inv.built (inv_nodup inv)
  have hperm : (t.sequences.map (fun s => s.map Prod.snd)).flatten.Perm ys := by
    rw [← List.map_flatten]
    refine (g1.map _).trans ?_
    refine List.Perm.trans ?_ (hp [] (List.Perm.refl _))
    unfold allPaths CTree.objs
    rw [List.map_map]
    exact List.Perm.refl _
  refine ⟨ys.map PathFace.outer, hu.map PathFace.outer (fun p cs h => nextFaces_follows h), hperm.map _, ?_, ?_⟩
  · intro f hf
    rcases hu.mem (hperm.mem_iff.mp hf) with h1 | ⟨p, cs, -, h2, h3⟩
    · rw [init_openPaths, List.mem_singleton] at h1
      subst h1; exact ⟨rfl, rfl⟩
    · obtain ⟨os, -, h2⟩ := bind_ok.mp h2
      cases h2
      obtain ⟨o, -, rfl⟩ := List.mem_map.mp h3
      exact ⟨rfl, rfl⟩
  · intro s hs
    obtain ⟨s', hs', rfl⟩ := List.mem_map.mp hs
    obtain ⟨pre, post, hsp⟩ := List.append_of_mem hs'
    obtain ⟨i1, ⟨x, i2, -⟩, -⟩ := g3 pre s' post hsp
    refine ⟨?_, ?_⟩
    · intro h0
      rw [List.map_eq_nil_iff] at h0
      rw [h0] at i2; cases i2
    · rw [List.isChain_map]
      refine i1.imp ?_
      rintro a b ⟨i, p, n, m, j1, j2, j3, rfl, rfl⟩
      obtain ⟨m', cs, k1, k2, k3⟩ := inv.link i p n j1 j2
      rw [j3] at k1
      cases k1
      exact ⟨cs.map PathFace.outer, nextFaces_follows k2, List.mem_map.mpr ⟨_, k3, rfl⟩⟩

/-- An engine for which, starting from good outlines, shrinking works, gives good outlines again and makes them smaller
by at least `δ` as measured by `μ`, and removing the holes works and does not make an outline larger. -/
structure Shrinks (eng : Clipper) (pocket : PathFace) (step : ℚ) (precision : ℕ) (Good : List Pt → Prop)
    (μ : List Pt → ℚ) (δ : ℚ) : Prop where
  amount : 0 < δ
  size : ∀ p, Good p → 0 ≤ μ p
  shrink : ∀ p, Good p → ∃ raw, eng.offset p (-step) precision = .ok raw ∧
    ∀ q ∈ raw, ∀ q', ClosedAs q q' → Good q' ∧ μ q' + δ ≤ μ p
  holes : ∀ ps, ps ≠ [] → (∀ p ∈ ps, Good p) → ∃ tree, eng.difference ps pocket.inners = .ok tree ∧
    ∀ n ∈ tree, n.contour ≠ [] ∧ (∀ h ∈ n.childs, h.contour ≠ []) ∧
      ∃ p ∈ ps, ∀ q', ClosedAs n.contour q' → Good q' ∧ μ q' ≤ μ p

theorem nextOuters_shrinks {eng : Clipper} {pocket : PathFace} {step : ℚ} {precision : ℕ} {Good : List Pt → Prop}
    {μ : List Pt → ℚ} {δ : ℚ} (h : Shrinks eng pocket step precision Good μ δ) {p : List Pt} (hp : Good p) :
    ∃ cs, nextOuters eng pocket step precision p = .ok cs ∧ ∀ c ∈ cs, Good c ∧ μ c + δ ≤ μ p := by
  obtain ⟨raw, h1, h2⟩ := h.shrink p hp
  obtain ⟨cands, h3⟩ := mapE_total (f := closePath) (as := raw.filter (fun p => decide (p ≠ [])))
    (fun c hc => closePath_total (by simpa using (List.mem_filter.mp hc).2))
  have hgood : ∀ c ∈ cands, Good c ∧ μ c + δ ≤ μ p := by
    intro c hc
    obtain ⟨q, hq, hqc⟩ := mapE_mem h3 hc
    exact h2 q (List.mem_of_mem_filter hq) c (closedAs_of hqc)
  have ho : offsetPath eng p (-step) precision = .ok cands := by unfold offsetPath; rw [h1]; exact h3
  unfold nextOuters
  rw [ho, ok_bind]
  by_cases hc : cands ≠ [] ∧ pocket.inners ≠ []
  · rw [if_pos hc]
    obtain ⟨tree, h4, h5⟩ := h.holes cands hc.1 (fun c hc => (hgood c hc).1)
    obtain ⟨faces, h6, h7, -⟩ := C40_faces_partial tree 0 (fun n hn => ⟨(h5 n hn).1, (h5 n hn).2.1⟩)
    have hd : differencePolyTree eng cands pocket.inners 0 = .ok faces := by
      unfold differencePolyTree; rw [h4]; exact h6
    refine ⟨faces.map PathFace.outer, by rw [hd]; rfl, ?_⟩
    intro c hc'
    obtain ⟨f, hf, rfl⟩ := List.mem_map.mp hc'
    obtain ⟨n, hn, -, hcl, -⟩ := forall₂_mem_right h7 hf
    obtain ⟨-, -, q, hq, hq'⟩ := h5 n hn
    have a := hq' _ hcl
    exact ⟨a.1, by linarith [(hgood q hq).2]⟩
  · rw [if_neg hc]
    exact ⟨cands, rfl, hgood⟩

theorem fillPocket_of_unfolds {eng : Clipper} {pocket : PathFace} {step : ℚ} {precision : ℕ} {xs : List (List Pt)}
    (h : Unfolds (Graph (nextOuters eng pocket step precision)) [pocket.outer] xs) :
    ∃ seqs, ∀ fuel, xs.length < fuel → fillPocket eng fuel pocket step precision = .ok seqs := by
  have h' := h.map (S := Graph (nextFaces eng pocket step precision)) (fun o => ⟨o, [], pocket.depth⟩) (by
    intro p cs hp
    unfold Graph nextFaces
    rw [show nextOuters eng pocket step precision p = .ok cs from hp]
    rfl)
  obtain ⟨t, ht⟩ := fillLoop_total (init_inv (⟨pocket.outer, [], pocket.depth⟩ : PathFace)) h' (Nat.lt_succ_self _)
  refine ⟨t.sequences.map (fun s => s.map Prod.snd), fun fuel hf => ?_⟩
  unfold fillPocket
  rw [fillLoop_mono ht (by rw [List.length_map]; omega)]
  rfl

/-- C42, termination.  If shrinking always makes contours smaller by at least a fixed amount, filling a pocket
terminates: after some number of rounds the loop has ended, with a result that does not depend on how many rounds were
allowed. -/
theorem C42_terminates {eng : Clipper} {pocket : PathFace} {step : ℚ} {precision : ℕ} {Good : List Pt → Prop}
    {μ : List Pt → ℚ} {δ : ℚ} (h : Shrinks eng pocket step precision Good μ δ) (hp : Good pocket.outer) :
    ∃ rounds seqs, ∀ fuel, rounds < fuel → fillPocket eng fuel pocket step precision = .ok seqs := by
  obtain ⟨xs, hx⟩ := unfolds_of_measure (R := Graph (nextOuters eng pocket step precision)) (Good := Good) h.amount h.size
    (fun p hp => nextOuters_shrinks h hp) [pocket.outer] (by simpa using hp)
  obtain ⟨seqs, hs⟩ := fillPocket_of_unfolds hx
  exact ⟨xs.length, seqs, hs⟩

theorem unfolds_self {α : Type} {R : α → List α → Prop} {p : α} (hR : ∀ cs, R p cs → p ∈ cs)
    {ps xs : List α} (hp : p ∈ ps) : ¬ Unfolds R ps xs := by
  intro h
  induction h with
  | nil => simp at hp
  | cons hn _ _ ih1 ih2 =>
    rcases List.mem_cons.mp hp with rfl | hp
    · exact ih1 (hR _ hn)
    · exact ih2 hp

/-- Without shrinking (a stepover of 0, and an engine that gives the outline itself when asked to offset it by 0)
filling a pocket without holes never ends. -/
theorem C42_zero_stepover_endless (eng : Clipper) (pocket : PathFace) (precision : ℕ) (hc : IsClosedPath pocket.outer)
    (hi : pocket.inners = []) (h0 : eng.offset pocket.outer 0 precision = .ok [pocket.outer]) (fuel : ℕ)
    (seqs : List (List PathFace)) : fillPocket eng fuel pocket 0 precision ≠ .ok seqs := by
  intro h
  obtain ⟨xs, hx, -⟩ := C42_complete h
  refine unfolds_self ?_ (List.mem_singleton.mpr rfl) hx
  rintro cs ⟨raw, shrunk, h1, h2, h3⟩
  rw [neg_zero, h0] at h1
  cases h1
  rw [if_pos (Or.inr hi)] at h3
  subst h3
  have hne : pocket.outer ≠ [] := by
    intro h'; rw [h'] at hc; exact absurd hc.1 (by simp)
  rw [List.filter_cons, if_pos (by simpa using hne)] at h2
  cases h2 with
  | cons h4 _ =>
    obtain ⟨-, h5 | ⟨a, h5, h6, -⟩, -⟩ := h4
    · simp [h5]
    · rw [← hc.2] at h6; exact absurd h5 h6

example (eng : Clipper) (h : eng.offset (rect 0 0 9 9) 0 3 = .ok [rect 0 0 9 9]) (fuel : ℕ) (seqs : List (List PathFace)) :
    fillPocket eng fuel ⟨rect 0 0 9 9, [], -1⟩ 0 3 ≠ .ok seqs :=
  C42_zero_stepover_endless eng _ _ ⟨by simp [rect], rfl⟩ rfl h _ _

/-- Offsets a square whose sides are parallel to the axes; removes nothing. -/
def squareEngine : Clipper where
  offset p o _ := match p with
    | [a, _, c, _, _] => if a.x - o < c.x + o then .ok [rect (a.x - o) (a.x - o) (c.x + o) (c.x + o)] else .ok []
    | _ => .ok []
  union ps _ := .ok (ps.map (fun p => .node p []))
  difference ps _ := .ok (ps.map (fun p => .node p []))
  contains _ _ := false

theorem closedAs_rect {a b : ℚ} {q : List Pt} (h : ClosedAs (rect a a b b) q) : q = rect a a b b := by
  obtain ⟨-, h | ⟨x, h1, h2, -⟩, -⟩ := h
  · exact h
  · simp only [rect, List.head?_cons, Option.some.injEq] at h1
    subst h1
    exact absurd rfl h2

/-- The hypotheses of `C42_terminates` are met by concentric squares; here with a hole in the pocket. -/
theorem squareEngine_shrinks (pocket : PathFace) {step : ℚ} (hs : 0 < step) (precision : ℕ) :
    Shrinks squareEngine pocket step precision (fun p => ∃ a b, a < b ∧ p = rect a a b b)
      (fun p => match p with | [a, _, c, _, _] => c.x - a.x | _ => 0) (2 * step) where
  amount := by linarith
  size := by rintro p ⟨a, b, hab, rfl⟩; simp only [rect]; linarith
  shrink := by
    rintro p ⟨a, b, hab, rfl⟩
    by_cases h : a - -step < b + -step
    · refine ⟨[rect (a - -step) (a - -step) (b + -step) (b + -step)], if_pos h, ?_⟩
      intro q hq q' hc
      rw [List.mem_singleton] at hq
      subst hq
      rw [closedAs_rect hc]
      refine ⟨⟨_, _, h, rfl⟩, ?_⟩
      simp only [rect]; linarith
    · exact ⟨[], if_neg h, by simp⟩
  holes := by
    intro ps _ hg
    refine ⟨_, rfl, ?_⟩
    intro n hn
    obtain ⟨p, hp, rfl⟩ := List.mem_map.mp hn
    obtain ⟨a, b, hab, rfl⟩ := hg p hp
    refine ⟨by simp [PolyNode.contour, rect], by simp [PolyNode.childs], _, hp, ?_⟩
    intro q hc
    rw [closedAs_rect hc]
    exact ⟨⟨a, b, hab, rfl⟩, le_rfl⟩

example : ∃ rounds seqs, ∀ fuel, rounds < fuel →
    fillPocket squareEngine fuel ⟨rect 0 0 10 10, [rect 1 1 2 2], -1⟩ (1 / 2) 3 = .ok seqs :=
  C42_terminates (squareEngine_shrinks _ (by norm_num) 3) ⟨0, 10, by norm_num, rfl⟩

example : fillPocket squareEngine 9 ⟨rect 0 0 10 10, [rect 1 1 2 2], -1⟩ 2 3 =
    .ok [[⟨rect 4 4 6 6, [], -1⟩, ⟨rect 2 2 8 8, [], -1⟩, ⟨rect 0 0 10 10, [], -1⟩]] := by decide +kernel

end CQ
