import Verif.Spec.SurfaceStep
import Verif.Props.SurfacePath
import Verif.Props.Arcs

/-! # C120: 3D surfacing never cuts more than a stepdown at once -/

namespace CQ

/-! ### chopping at a lower limit -/

theorem chopFrom_begins {limit : ℚ} : ∀ {seq cur : List Vec}, cur ≠ [] → ∃ piece ∈ chopFrom limit cur seq, cur <+: piece := by
  intro seq
  induction seq with
  | nil => intro cur hc; exact ⟨cur, by simp [chopFrom, hc], List.prefix_refl _⟩
  | cons p seq ih =>
    intro cur hc
    unfold chopFrom
    by_cases hp : p.z > limit
    · rw [if_pos hp, if_neg hc]
      exact ⟨cur, by simp, List.prefix_refl _⟩
    · rw [if_neg hp]
      obtain ⟨piece, h1, h2⟩ := ih (cur := cur ++ [p]) (by simp)
      exact ⟨piece, h1, (List.prefix_append _ _).trans h2⟩

/-- What is left at a lower limit was part of a piece at a higher one. -/
theorem chopFrom_infix {low high : ℚ} (hl : low ≤ high) : ∀ {seq cur cur' : List Vec} {piece : List Vec}, cur' <:+ cur →
    piece ∈ chopFrom low cur' seq → ∃ piece' ∈ chopFrom high cur seq, piece <:+: piece' := by
  intro seq
  induction seq with
  | nil =>
    intro cur cur' piece hc h
    unfold chopFrom at h ⊢
    split at h
    · cases h
    · rename_i hne
      rw [List.mem_singleton] at h
      subst h
      have : cur ≠ [] := by rintro rfl; exact hne (List.eq_nil_of_suffix_nil hc)
      simp only [this, if_false]
      exact ⟨cur, by simp, hc.isInfix⟩
  | cons p seq ih =>
    intro cur cur' piece hc h
    unfold chopFrom at h ⊢
    by_cases hp : p.z > high
    · have hp' : p.z > low := lt_of_le_of_lt hl hp
      rw [if_pos hp'] at h
      rw [if_pos hp]
      split at h
      · obtain ⟨q, hq, hq'⟩ := ih (cur := []) (List.suffix_refl _) h
        split
        · exact ⟨q, hq, hq'⟩
        · exact ⟨q, List.mem_cons_of_mem _ hq, hq'⟩
      · rename_i hne
        have : cur ≠ [] := by rintro rfl; exact hne (List.eq_nil_of_suffix_nil hc)
        rw [if_neg this]
        rcases List.mem_cons.mp h with rfl | h
        · exact ⟨cur, by simp, hc.isInfix⟩
        · obtain ⟨q, hq, hq'⟩ := ih (cur := []) (List.suffix_refl _) h
          exact ⟨q, List.mem_cons_of_mem _ hq, hq'⟩
    · rw [if_neg hp]
      by_cases hp' : p.z > low
      · rw [if_pos hp'] at h
        split at h
        · exact ih (List.nil_suffix) h
        · rename_i hne
          rcases List.mem_cons.mp h with rfl | h
          · obtain ⟨q, hq, hq'⟩ := chopFrom_begins (limit := high) (seq := seq) (cur := cur ++ [p]) (by simp)
            exact ⟨q, hq, hc.isInfix.trans ((List.prefix_append cur [p]).trans hq').isInfix⟩
          · exact ih (List.nil_suffix) h
      · rw [if_neg hp'] at h
        refine ih ?_ h
        obtain ⟨w, rfl⟩ := hc
        exact ⟨w, by simp⟩

/-! ### the cuts of a piece -/

/-- From `a` to `b` runs a cut of the piece at depth `d`. -/
def CutBetween (safe d : ℚ) (piece : List Vec) (a b : Vec) : Prop :=
  ∃ u p q v, piece = u ++ p :: q :: v ∧ b = ⟨q.x, q.y, max d q.z⟩ ∧ a = ⟨p.x, p.y, if u = [] then safe else max d p.z⟩

/-- The cuts after a point. -/
theorem surfaceCuts_iff {d : ℚ} : ∀ {ps : List Vec} {s a b : Vec},
    (∃ c ∈ surfaceCuts d (.fromVec s) ps, c.kind.mot = .linear ∧ c.start = .fromVec a ∧ c.fin = .fromVec b) ↔
      ∃ u q v, ps = u ++ q :: v ∧ b = ⟨q.x, q.y, max d q.z⟩ ∧ a = (match u.getLast? with | none => s | some p => ⟨p.x, p.y, max d p.z⟩) := by
  intro ps
  induction ps with
  | nil => intro s a b; simp [surfaceCuts]
  | cons p ps ih =>
    intro s a b
    have e : surfaceCuts d (.fromVec s) (p :: ps) =
      cutAbs { x := some p.x, y := some p.y, z := some (max d p.z) } (some (.fromVec s)) none ::
        surfaceCuts d (.fromVec ⟨p.x, p.y, max d p.z⟩) ps := rfl
    rw [e]
    constructor
    · rintro ⟨c, hc, h1, h2, h3⟩
      rcases List.mem_cons.mp hc with rfl | hc
      · refine ⟨[], p, ps, rfl, ?_, ?_⟩
        · have : AddrVec.fromVec ⟨p.x, p.y, max d p.z⟩ = .fromVec b := h3
          cases b
          simp only [AddrVec.fromVec, AddrVec.mk.injEq, Option.some.injEq] at this
          simp [this]
        · have : AddrVec.fromVec s = .fromVec a := h2
          cases a; cases s
          simp only [AddrVec.fromVec, AddrVec.mk.injEq, Option.some.injEq] at this
          simp [this]
      · obtain ⟨u, q, v, rfl, hb, ha⟩ := ih.mp ⟨c, hc, h1, h2, h3⟩
        refine ⟨p :: u, q, v, rfl, hb, ?_⟩
        rw [ha, List.getLast?_cons]
        cases u.getLast? <;> rfl
    · rintro ⟨u, q, v, hu, hb, ha⟩
      cases u with
      | nil =>
        simp only [List.nil_append, List.cons.injEq] at hu
        obtain ⟨rfl, rfl⟩ := hu
        exact ⟨_, List.mem_cons_self, rfl, by rw [ha]; rfl, by rw [hb]; rfl⟩
      | cons p' u =>
        simp only [List.cons_append, List.cons.injEq] at hu
        obtain ⟨rfl, rfl⟩ := hu
        obtain ⟨c, hc, h⟩ := (ih (s := ⟨p.x, p.y, max d p.z⟩) (a := a) (b := b)).mpr ⟨u, q, v, rfl, hb, by
          rw [ha, List.getLast?_cons]; cases u.getLast? <;> rfl⟩
        exact ⟨c, List.mem_cons_of_mem _ hc, h⟩

theorem surfaceCuts_known {d : ℚ} : ∀ {ps : List Vec} {s : Vec} {c : Motion}, c ∈ surfaceCuts d (.fromVec s) ps →
    c.kind.mot = .linear ∧ ∃ a b : Vec, c.start = .fromVec a ∧ c.fin = .fromVec b := by
  intro ps
  induction ps with
  | nil => intro s c h; cases h
  | cons p ps ih =>
    intro s c h
    rcases List.mem_cons.mp h with rfl | h
    · exact ⟨rfl, s, ⟨p.x, p.y, max d p.z⟩, rfl, rfl⟩
    · exact ih (s := ⟨p.x, p.y, max d p.z⟩) h

theorem cutBetween_cons {safe d : ℚ} {p : Vec} {ps : List Vec} {a b : Vec} : CutBetween safe d (p :: ps) a b ↔
    ∃ u q v, ps = u ++ q :: v ∧ b = ⟨q.x, q.y, max d q.z⟩ ∧
      a = (match u.getLast? with | none => ⟨p.x, p.y, safe⟩ | some p => ⟨p.x, p.y, max d p.z⟩) := by
  constructor
  · rintro ⟨u, p', q, v, hu, hb, ha⟩
    cases u with
    | nil =>
      simp only [List.nil_append, List.cons.injEq] at hu
      obtain ⟨rfl, rfl⟩ := hu
      exact ⟨[], q, v, rfl, hb, by simpa using ha⟩
    | cons w u =>
      simp only [List.cons_append, List.cons.injEq] at hu
      obtain ⟨rfl, rfl⟩ := hu
      exact ⟨u ++ [p'], q, v, by simp, hb, by simpa using ha⟩
  · rintro ⟨u, q, v, rfl, hb, ha⟩
    rcases List.eq_nil_or_concat u with rfl | ⟨u, p', rfl⟩
    · exact ⟨[], p, q, v, rfl, hb, by simpa using ha⟩
    · exact ⟨p :: u, p', q, v, by simp, hb, by simpa using ha⟩

theorem pieceMoves_cuts {j : Job} {d : ℚ} {pos : AddrVec} {piece : List Vec} {c : Motion} (h : c ∈ pieceMoves j d pos piece)
    (hk : c.kind.mot ≠ .rapid) : c.kind.mot = .linear ∧
      ∃ a b : Vec, c.start = .fromVec a ∧ c.fin = .fromVec b ∧ CutBetween j.opSafeHeight d piece a b := by
  cases piece with
  | nil => cases h
  | cons p ps =>
    simp only [pieceMoves, List.cons_append, List.nil_append, List.mem_cons] at h
    rcases h with rfl | rfl | rfl | h
    · exact absurd rfl hk
    · exact absurd rfl hk
    · exact absurd rfl hk
    · have h' : c ∈ surfaceCuts d (.fromVec ⟨p.x, p.y, j.opSafeHeight⟩) ps := h
      obtain ⟨h1, a, b, h2, h3⟩ := surfaceCuts_known h'
      exact ⟨h1, a, b, h2, h3, cutBetween_cons.mpr (surfaceCuts_iff.mp ⟨c, h', h1, h2, h3⟩)⟩

theorem pieceMoves_has {j : Job} {d : ℚ} {pos : AddrVec} {piece : List Vec} {a b : Vec}
    (h : CutBetween j.opSafeHeight d piece a b) :
    ∃ c ∈ pieceMoves j d pos piece, c.kind.mot = .linear ∧ c.start = .fromVec a ∧ c.fin = .fromVec b := by
  cases piece with
  | nil => obtain ⟨u, p, q, v, h, -⟩ := h; simp at h
  | cons p ps =>
    obtain ⟨c, hc, h⟩ := surfaceCuts_iff.mpr (cutBetween_cons.mp h)
    refine ⟨c, ?_, h⟩
    simp only [pieceMoves, List.cons_append, List.nil_append, List.mem_cons]
    exact .inr (.inr (.inr hc))

theorem piecesMoves_has {j : Job} {d : ℚ} {piece : List Vec} {a b : Vec} (h : CutBetween j.opSafeHeight d piece a b) :
    ∀ {pieces : List (List Vec)} {pos : AddrVec}, piece ∈ pieces →
      ∃ c ∈ piecesMoves j d pos pieces, c.kind.mot = .linear ∧ c.start = .fromVec a ∧ c.fin = .fromVec b := by
  intro pieces
  induction pieces with
  | nil => intro pos hp; cases hp
  | cons s ss ih =>
    intro pos hp
    unfold piecesMoves
    rcases List.mem_cons.mp hp with rfl | hp
    · obtain ⟨c, hc, h⟩ := pieceMoves_has (pos := pos) h
      exact ⟨c, List.mem_append_left _ hc, h⟩
    · obtain ⟨c, hc, h⟩ := ih (pos := lastFin pos (pieceMoves j d pos s)) hp
      exact ⟨c, List.mem_append_right _ hc, h⟩

/-- A cut of a piece runs below a cut of the longer piece of the pass before. -/
theorem cutBetween_infix {safe d d' s top : ℚ} {piece piece' : List Vec} {a b : Vec} (hi : piece <:+: piece') (hd : d' ≤ d + s)
    (hs : 0 ≤ s) (hz : ∀ p ∈ piece, p.z ≤ top) (hdt : d' ≤ top) (hts : top ≤ safe) (h : CutBetween safe d piece a b) :
    ∃ a' b', CutBetween safe d' piece' a' b' ∧ OverBy s a' a ∧ OverBy s b' b := by
  obtain ⟨u, p, q, v, rfl, rfl, rfl⟩ := h
  obtain ⟨l, r, rfl⟩ := hi
  have hm : ∀ z : ℚ, max d' z ≤ max d z + s := by
    intro z
    refine max_le ?_ ?_
    · linarith [le_max_left d z]
    · linarith [le_max_right d z]
  refine ⟨_, _, ⟨l ++ u, p, q, v ++ r, by simp, rfl, rfl⟩, ⟨rfl, rfl, ?_⟩, ⟨rfl, rfl, hm _⟩⟩
  have hp : p.z ≤ top := hz p (by simp)
  by_cases hu : u = []
  · by_cases hl : l = []
    · simp only [hu, hl, List.append_nil, if_true]
      linarith
    · simp only [hu, List.append_nil, hl, if_true, if_false]
      have := max_le hdt hp
      linarith
  · have : l ++ u ≠ [] := by simp [hu]
    simp only [hu, this, if_false]
    exact hm _

/-! ### the passes -/

theorem flatten_at {α} : ∀ {L : List (List α)} {pre post : List α} {c : α}, L.flatten = pre ++ c :: post →
    ∃ A l B u v, L = A ++ l :: B ∧ l = u ++ c :: v ∧ pre = A.flatten ++ u := by
  intro L
  induction L with
  | nil => intro pre post c h; simp at h
  | cons l L ih =>
    intro pre post c h
    rw [List.flatten_cons] at h
    rcases List.append_eq_append_iff.mp h with ⟨w, h1, h2⟩ | ⟨w, h1, h2⟩
    · obtain ⟨A, l', B, u, v, h3, h4, h5⟩ := ih h2
      exact ⟨l :: A, l', B, u, v, by rw [h3]; rfl, h4, by rw [h1, h5]; simp⟩
    · cases w with
      | nil =>
        simp only [List.append_nil, List.nil_append] at h1 h2
        obtain ⟨A, l', B, u, v, h3, h4, h5⟩ := ih (pre := []) h2.symm
        refine ⟨l :: A, l', B, u, v, by rw [h3]; rfl, h4, ?_⟩
        rw [List.flatten_cons, List.append_assoc, ← h5, h1, List.append_nil]
      | cons x w =>
        simp only [List.cons_append, List.cons.injEq] at h2
        obtain ⟨rfl, -⟩ := h2
        exact ⟨[], l, L, pre, w, rfl, h1, by simp⟩

theorem takesAtMost_flatten {top s : ℚ} {css : List (List Motion)} (h : ∀ cs ∈ css, TakesAtMost top s cs) :
    TakesAtMost top s css.flatten := by
  intro pre c post e hk
  obtain ⟨A, l, B, u, v, rfl, rfl, rfl⟩ := flatten_at e
  obtain ⟨h1, a, b, ha, hb, h2⟩ := h (u ++ c :: v) (by simp) u c v rfl hk
  refine ⟨h1, a, b, ha, hb, ?_⟩
  rcases h2 with h2 | ⟨c', hc', h2⟩
  · exact .inl h2
  · exact .inr ⟨c', List.mem_append_right _ hc', h2⟩

/-- C120, one boundary. -/
theorem boundary_step {eng : SurfaceEngine} {args : SurfaceArgs} {j : Job} {poly : List Pt} {cs : List Motion} {h : Pt → ℚ} {s : ℚ}
    (hd : ∀ ps, eng.drop ps = ps.map h) (hstep : args.stepdown = some (-s)) (hs : 0 < s) (htop : args.topHeight ≤ 0)
    (hsafe : 0 ≤ j.opSafeHeight) (hc : surfaceBoundary eng args j poly = .ok cs) : TakesAtMost args.topHeight s cs := by
  obtain ⟨paths, seqs, depths, -, h2, h3, rfl⟩ := surfaceBoundary_ok hd hc
  obtain ⟨passes, e, hl, hp⟩ := passesMoves_split (j := j) (depths := depths)
    (seqs := seqs.map (fun s => s.map (lift h))) depths 0 {}
  rw [hstep] at h3
  have hbot : eng.bottom < args.topHeight - s := by
    by_contra hb
    rw [(C59_violated args.topHeight eng.bottom s hs).2 (not_lt.mp hb)] at h3
    cases h3
  obtain ⟨depths', h3', hchain, -⟩ := C59_passes_partial hs hbot
  rw [h3] at h3'
  cases h3'
  -- neighbouring passes
  have hlt : ∀ x ∈ depths, x ≤ args.topHeight := fun x hx => by
    have hp : List.Pairwise (fun a b : ℚ => b < a) (args.topHeight :: depths) :=
      List.isChain_iff_pairwise.mp (hchain.imp (fun a b h => h.1))
    exact ((List.pairwise_cons.mp hp).1 x hx).le
  have hnext : ∀ (k : ℕ) (x y : ℚ), depths[k]? = some x → depths[k + 1]? = some y → y < x ∧ x ≤ y + s := by
    intro k x y hx hy
    have h1 := (List.isChain_cons.mp hchain).2
    rw [List.isChain_iff_getElem] at h1
    obtain ⟨hk, rfl⟩ := List.getElem?_eq_some_iff.mp hy
    obtain ⟨hk', rfl⟩ := List.getElem?_eq_some_iff.mp hx
    obtain ⟨g1, g2⟩ := h1 k hk
    exact ⟨g1, by linarith⟩
  have hfirst : ∀ x, depths[0]? = some x → args.topHeight ≤ x + s := by
    intro x hx
    cases hdep : depths with
    | nil => rw [hdep] at hx; simp at hx
    | cons y ys =>
      rw [hdep] at hx hchain
      simp only [List.getElem?_cons_zero, Option.some.injEq] at hx
      subst hx
      have := (List.isChain_cons_cons.mp hchain).1.2
      linarith
  have hlim0 : ∀ i, passLimit depths i ≤ 0 := by
    intro i
    unfold passLimit
    split
    · rw [List.getD_eq_getElem?_getD]
      cases hx : depths[i - 2]? with
      | none => simp
      | some x => exact (hlt x (List.mem_of_getElem? hx)).trans htop
    · exact le_refl _
  have hlim : ∀ k, k + 1 < depths.length → passLimit depths (k + 1) ≤ passLimit depths k := by
    intro k hk
    by_cases hk1 : 1 < k
    · have e1 : passLimit depths (k + 1) = depths[k - 1] := by
        unfold passLimit
        rw [if_pos (by omega), List.getD_eq_getElem?_getD, show k + 1 - 2 = k - 1 by omega, List.getElem?_eq_getElem (by omega)]
        rfl
      have e2 : passLimit depths k = depths[k - 2] := by
        unfold passLimit
        rw [if_pos hk1, List.getD_eq_getElem?_getD, List.getElem?_eq_getElem (by omega)]
        rfl
      rw [e1, e2]
      refine (hnext (k - 2) _ _ (List.getElem?_eq_getElem (by omega)) ?_).1.le
      rw [show k - 2 + 1 = k - 1 by omega, List.getElem?_eq_getElem (by omega)]
    · have : passLimit depths k = 0 := by unfold passLimit; rw [if_neg hk1]
      rw [this]
      exact hlim0 _
  rw [e]
  intro pre c post hsplit hk
  obtain ⟨A, l, B, u, v, hpass, rfl, rfl⟩ := flatten_at hsplit
  have hlen : A.length < depths.length := by rw [← hl, hpass]; simp
  have hget : passes[A.length]? = some (u ++ c :: v) := by rw [hpass]; simp
  obtain ⟨d, hdk⟩ : ∃ d, depths[A.length]? = some d := ⟨_, List.getElem?_eq_getElem hlen⟩
  obtain ⟨pos, hcs⟩ := hp A.length d _ hdk hget
  have hcm : c ∈ piecesMoves j d pos (chopSequences (seqs.map (fun s => s.map (lift h))) (passLimit depths (0 + A.length))) := by
    rw [← hcs]; simp
  obtain ⟨piece, hpiece, pos', hcm⟩ := mem_piecesMoves' hcm
  obtain ⟨hlin, a, b, ha, hb, hab⟩ := pieceMoves_cuts hcm hk
  refine ⟨hlin, a, b, ha, hb, ?_⟩
  rcases Nat.eq_zero_or_pos A.length with h0 | h0
  · left
    rw [h0] at hdk
    have hdt := hfirst d hdk
    obtain ⟨u', p, q, v', -, rfl, rfl⟩ := hab
    have hm := fun z : ℚ => le_max_left d z
    constructor
    · simp only
      split
      · linarith
      · linarith [hm p.z]
    · simp only
      linarith [hm q.z]
  · right
    obtain ⟨k, hkA⟩ : ∃ k, A.length = k + 1 := ⟨A.length - 1, by omega⟩
    rw [hkA] at hlen hdk hpiece
    obtain ⟨d', hdk'⟩ : ∃ d', depths[k]? = some d' := ⟨_, List.getElem?_eq_getElem (by omega)⟩
    have hgetA : passes[k]? = A[k]? := by rw [hpass, List.getElem?_append_left (by omega)]
    obtain ⟨m, hm⟩ : ∃ m, A[k]? = some m := ⟨_, List.getElem?_eq_getElem (by omega)⟩
    obtain ⟨pos2, hcs2⟩ := hp k d' m hdk' (by rw [hgetA, hm])
    obtain ⟨seq, hseq, hch⟩ := List.mem_flatMap.mp hpiece
    obtain ⟨piece', hpiece', hin⟩ := chopFrom_infix (cur := []) (cur' := []) (hlim k hlen) (List.suffix_refl _)
      (by simpa using hch)
    have hz : ∀ p ∈ piece, p.z ≤ 0 := by
      intro p hp
      exact ((mem_chopFrom (by simp) hch).2 p hp).2.trans (hlim0 _)
    obtain ⟨a', b', hab', ho, ho'⟩ := cutBetween_infix hin (hnext k d' d hdk' hdk).2 hs.le hz
      ((hlt d' (List.mem_of_getElem? hdk')).trans htop) hsafe hab
    obtain ⟨c', hc', h1, h2, h3⟩ := piecesMoves_has (pos := pos2) hab' (pieces := chopSequences _ (passLimit depths (0 + k)))
      (List.mem_flatMap.mpr ⟨seq, hseq, by simpa using hpiece'⟩)
    refine ⟨c', List.mem_append_left _ (List.mem_flatten.mpr ⟨m, List.mem_of_getElem? hm, ?_⟩), h1, a', b', h2, h3, ho, ho'⟩
    rw [hcs2]
    exact hc'

/-- C120.  With a stepdown `s` (given as `-s`) and a top height that is not above the job plane, a 3D surfacing never cuts more than
`s` at once: every cut is at most `s` below the top height, or a cut before it ran along the same line at most `s` above it, at either
end and so everywhere between. -/
theorem C120_step_partial {eng : SurfaceEngine} {k : FaceKernel} {args : SurfaceArgs} {oo : ℚ × ℚ} {io : Option (ℚ × ℚ)}
    {bs : List BoundaryFace} {j : Job} {cs : List Motion} {h : Pt → ℚ} {s : ℚ} (hd : ∀ ps, eng.drop ps = ps.map h)
    (hstep : args.stepdown = some (-s)) (hs : 0 < s) (htop : args.topHeight ≤ 0) (hsafe : 0 ≤ j.opSafeHeight)
    (hc : surface3d eng k args oo io bs j = .ok cs) : TakesAtMost args.topHeight s cs := by
  obtain ⟨css, rfl, hb⟩ := surface3d_ok hc
  refine takesAtMost_flatten (fun cs hcs => ?_)
  obtain ⟨poly, hpoly⟩ := hb cs hcs
  exact boundary_step hd hstep hs htop hsafe hpoly

/-! ### On the machine -/

theorem forall₂_split_left {α β} {R : α → β → Prop} : ∀ {pre post : List α} {e : α} {bs : List β}, List.Forall₂ R (pre ++ e :: post) bs →
    ∃ pre' c post', bs = pre' ++ c :: post' ∧ List.Forall₂ R pre pre' ∧ R e c := by
  intro pre
  induction pre with
  | nil =>
    intro post e bs h
    cases h with
    | cons h1 h2 => exact ⟨[], _, _, rfl, .nil, h1⟩
  | cons x pre ih =>
    intro post e bs h
    cases h with
    | cons h1 h2 =>
      obtain ⟨pre', c, post', rfl, h3, h4⟩ := ih h2
      exact ⟨_ :: pre', c, post', rfl, .cons h1 h3, h4⟩

/-- A point with its coordinates rounded. -/
def Vec.rounded (a : Vec) : Vec := ⟨rnd 3 a.x, rnd 3 a.y, rnd 3 a.z⟩

theorem feedsStraight_follows {e : Event} {c : Motion} {a b : Vec} (hf : FollowsMove e c) (hl : c.kind.mot = .linear)
    (ha : c.start = .fromVec a) (hb : c.fin = .fromVec b) : FeedsStraight a.rounded b.rounded e := by
  obtain ⟨⟨tgt, ctr, hact, hx, hy, hz, -, -⟩, hst⟩ := hf
  rw [ha] at hst
  refine ⟨pos_of_agrees_vec hst, ctr, ?_⟩
  rw [hact, hl]
  rw [hb] at hx hy hz
  have : tgt = b.rounded.pos := by
    ext1
    · exact hx.1 _ rfl
    · exact hy.1 _ rfl
    · exact hz.1 _ rfl
  rw [this]

theorem overBy_rounded {s : ℚ} {a b : Vec} (h : OverBy s a b) : OverBy (s + 1 / 1000) a.rounded b.rounded := by
  obtain ⟨h1, h2, h3⟩ := h
  have ha := abs_le.mp (abs_rnd3 a.z)
  have hb := abs_le.mp (abs_rnd3 b.z)
  exact ⟨by simp only [Vec.rounded, h1], by simp only [Vec.rounded, h2], by simp only [Vec.rounded]; linarith⟩

/-- The machine that follows the moves takes no more than they do. -/
theorem feedsAtMost_follows {top s : ℚ} {part : List Event} {cs : List Motion} (ht : TakesAtMost top s cs)
    (hf : List.Forall₂ FollowsMove (part.filter isMove) cs) : FeedsAtMost top (s + 1 / 1000) part := by
  intro pre e post he hfeed
  have hmove : isMove e = true := by
    unfold isFeedMove at hfeed
    unfold isMove
    split at hfeed
    · rfl
    · cases hfeed
  rw [he, List.filter_append, List.filter_cons_of_pos hmove] at hf
  obtain ⟨pre', c, post', rfl, hpre, hec⟩ := forall₂_split_left hf
  have hk : c.kind.mot ≠ .rapid := by
    intro hk
    obtain ⟨tgt, ctr, hact, -⟩ := hec.1
    unfold isFeedMove at hfeed
    rw [hact, hk] at hfeed
    cases hfeed
  obtain ⟨hl, a, b, ha, hb, h⟩ := ht pre' c post' rfl hk
  refine ⟨_, _, feedsStraight_follows hec hl ha hb, ?_⟩
  rcases h with ⟨h1, h2⟩ | ⟨c', hc', hl', a', b', ha', hb', h1, h2⟩
  · left
    have ra := abs_le.mp (abs_rnd3 a.z)
    have rb := abs_le.mp (abs_rnd3 b.z)
    constructor <;> simp only [Vec.rounded] <;> linarith
  · right
    obtain ⟨e', he', hf'⟩ := forall2_right hpre hc'
    exact ⟨e', (List.mem_filter.mp he').1, _, _, feedsStraight_follows hf' hl' ha' hb', overBy_rounded h1, overBy_rounded h2⟩

/-- C120 on the machine.  In the program of any job with a 3D surfacing with stepdown `s` in it, the machine never takes more than `s`
(and a thousandth for the rounding of the coordinates) at once in that operation. -/
theorem C120_machine_partial {eng : SurfaceEngine} {k : FaceKernel} {args : SurfaceArgs} {oo : ℚ × ℚ} {io : Option (ℚ × ℚ)}
    {bs : List BoundaryFace} {h : Pt → ℚ} {s : ℚ} (hd : ∀ ps, eng.drop ps = ps.map h)
    (hstep : args.stepdown = some (-s)) (hs : 0 < s) (htop : args.topHeight ≤ 0)
    {j0 j1 j2 jf : Job} {before after : List Request} (m : Machine) (h0 : InitOK j0) (hsafe : 0 ≤ j0.opSafeHeight)
    (hn : ∀ v, j0.toolNumber = some v → NumOK v)
    (hok : ChainOK j0 (before ++ surface3dRequest eng k args oo io bs :: after))
    (h1 : j0.chain before = .ok j1) (h2 : (j1.call (surface3dRequest eng k args oo io bs)).2 = .ok j2)
    (h3 : j2.chain after = .ok jf) (hend : m.ended = false) (htool : ∀ n, j0.toolNumber = some n → m.tool = some n.value) :
    ∃ t m' pre part post cs, jf.toGcode = .ok t ∧ runText m t = some (m', pre ++ part ++ post) ∧
      surface3d eng k args oo io bs (j1.updateTool none).2 = .ok cs ∧ (part.filter isMove).length = cs.length ∧
      FeedsAtMost args.topHeight (s + 1 / 1000) part := by
  obtain ⟨t, m', pre, part, post, cs, ht, hrun, hgen, hperf, hfol, -⟩ := C94_followed m h0 hn hok h1 h2 h3 hend htool
  have hbase : SameBase j0 (j1.updateTool none).2 := updateTool_base (chain_base (show SameBase j0 j0 from rfl) h1) _
  have hsafe' : j0.opSafeHeight = (j1.updateTool none).2.opSafeHeight := by rw [hbase]
  have hgen' : surface3d eng k args oo io bs (j1.updateTool none).2 = .ok cs := hgen
  refine ⟨t, m', pre, part, post, cs, ht, hrun, hgen', hperf.length_eq, ?_⟩
  refine feedsAtMost_follows (C120_step_partial hd hstep hs htop (by rw [← hsafe']; exact hsafe) hgen') (hfol ?_)
  obtain ⟨css, rfl, hb⟩ := surface3d_ok hgen'
  refine tracks_flatten (fun a ha => ?_) _
  obtain ⟨poly, hpoly⟩ := hb a ha
  obtain ⟨paths, seqs, depths, -, -, -, rfl⟩ := surfaceBoundary_ok hd hpoly
  exact tracks_connected passesMoves_connected

/-- The hypotheses of C120, with cuts in several passes (stepdown 2, down to -5). -/
example : hillArgs.stepdown = some (-2) ∧ hillArgs.topHeight ≤ 0 ∧ InitOK demoInit ∧ 0 ≤ demoInit.opSafeHeight ∧
    (∀ ps, ridgeEngine.drop ps = ps.map ridge) ∧
    (match surface3d ridgeEngine idleKernel hillArgs (-1, 0) (some (1, 0)) [hillFace] demoInit with
      | .ok cs => decide ((∃ c ∈ cs, c.fin.z = some (-2)) ∧ (∃ c ∈ cs, c.fin.z = some (-4)) ∧ ∃ c ∈ cs, c.fin.z = some (-5))
      | .error _ => false) = true :=
  ⟨rfl, by decide +kernel, demo_reach.1, by decide +kernel, fun _ => rfl, by decide +kernel⟩

/-! ### Above the job plane -/

/-- A step of height 3/2 to the right of `x = 4`. -/
def step32 (p : Pt) : ℚ := if p.x ≤ 4 then -5 else 3 / 2

def stepEngine : SurfaceEngine := { hillEngine with drop := fun ps => ps.map step32 }

/-- The first cut to the height 3/2 and what is before it. -/
def firstTo : List Motion → List Motion → Option (List Motion × Motion × List Motion)
  | _, [] => none
  | pre, c :: cs => if c.kind.mot = .linear ∧ c.fin.z = some (3 / 2) then some (pre, c, cs) else firstTo (pre ++ [c]) cs

theorem firstTo_split : ∀ {cs pre0 pre post : List Motion} {c : Motion}, firstTo pre0 cs = some (pre, c, post) →
    pre0 ++ cs = pre ++ c :: post ∧ c.kind.mot = .linear ∧ c.fin.z = some (3 / 2) := by
  intro cs
  induction cs with
  | nil => intro pre0 pre post c h; cases h
  | cons x cs ih =>
    intro pre0 pre post c h
    unfold firstTo at h
    split at h
    · rename_i hx
      cases h
      exact ⟨rfl, hx⟩
    · obtain ⟨h1, h2⟩ := ih h
      exact ⟨by rw [← h1]; simp, h2⟩

/-- C120 fails for a top height above the job plane: with stock up to 4, a stepdown of 1 and a step of height 3/2 in the shape, the tool
cuts down to the step without having cut at that place before. -/
theorem C120_violated : ∃ (eng : SurfaceEngine) (args : SurfaceArgs) (b : BoundaryFace) (h : Pt → ℚ) (cs : List Motion),
    (∀ ps, eng.drop ps = ps.map h) ∧ args.stepdown = some (-1) ∧ args.topHeight = 4 ∧ 0 ≤ demoInit.opSafeHeight ∧
      surface3d eng idleKernel args (-1, 0) (some (1, 0)) [b] demoInit = .ok cs ∧ ¬ TakesAtMost 4 1 cs ∧
      ∃ pre c post, cs = pre ++ c :: post ∧ c.kind.mot = .linear ∧ c.fin.z = some (3 / 2) ∧
        ∀ c' ∈ pre, c'.kind.mot = .linear → ¬ (c'.fin.x = c.fin.x ∧ c'.fin.y = c.fin.y) := by
  have h : (match surface3d stepEngine idleKernel { hillArgs with topHeight := 4, stepdown := some (-1) } (-1, 0) (some (1, 0))
        [hillFace] demoInit with
      | .ok cs =>
        (match firstTo [] cs with
        | some (pre, c, _) => decide (∀ c' ∈ pre, c'.kind.mot = .linear → ¬ (c'.fin.x = c.fin.x ∧ c'.fin.y = c.fin.y))
        | none => false)
      | .error _ => false) = true := by decide +kernel
  split at h
  · rename_i cs hr
    split at h
    · rename_i pre c post hf
      obtain ⟨h1, h2, h3⟩ := firstTo_split hf
      rw [List.nil_append] at h1
      have hno := of_decide_eq_true h
      refine ⟨stepEngine, _, hillFace, step32, cs, fun _ => rfl, rfl, rfl, by decide +kernel, hr, ?_, pre, c, post, h1, h2, h3, hno⟩
      intro ht
      obtain ⟨-, a, b, -, hb, h4⟩ := ht pre c post h1 (by rw [h2]; decide)
      rcases h4 with ⟨-, h4⟩ | ⟨c', hc', hl, a', b', -, hb', -, h5, h6, -⟩
      · rw [hb] at h3
        simp only [AddrVec.fromVec, Option.some.injEq] at h3
        rw [h3] at h4
        norm_num at h4
      · refine hno c' hc' hl ?_
        rw [hb, hb']
        simp only [AddrVec.fromVec, h5, h6, and_self]
    · cases h
  · cases h

end CQ
