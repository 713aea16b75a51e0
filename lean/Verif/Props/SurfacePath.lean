import Verif.Props.Surface
import Verif.Props.EndToEnd

/-! # C100: 3D surfacing between the sampled points, and on the machine -/

namespace CQ

/-- Between two points at or above a height that changes by at most `K` per unit, the straight way is at most half of `K` times
their distance below it. -/
theorem clearWay_chord {K ρ : ℚ} {h : Pt → ℚ} (hK : SlopeUpTo K h) (hK0 : 0 ≤ K) (hρ : 0 ≤ ρ) {a b : Vec}
    (hd : sqDist ⟨a.x, a.y⟩ ⟨b.x, b.y⟩ ≤ ρ ^ 2) (ha : h ⟨a.x, a.y⟩ ≤ a.z) (hb : h ⟨b.x, b.y⟩ ≤ b.z) :
    ClearWay h (K * ρ / 2) a b := by
  intro t t0 t1
  have s1 : 0 ≤ 1 - t := by linarith
  have h1 := hK ((⟨a.x, a.y⟩ : Pt).lerp ⟨b.x, b.y⟩ t) ⟨a.x, a.y⟩ (t * ρ) (mul_nonneg t0 hρ) (by
    have e : sqDist ((⟨a.x, a.y⟩ : Pt).lerp ⟨b.x, b.y⟩ t) ⟨a.x, a.y⟩ = t ^ 2 * sqDist ⟨a.x, a.y⟩ ⟨b.x, b.y⟩ := by
      simp only [sqDist, Pt.lerp]; ring
    rw [e, mul_pow]
    exact mul_le_mul_of_nonneg_left hd (sq_nonneg _))
  have h2 := hK ((⟨a.x, a.y⟩ : Pt).lerp ⟨b.x, b.y⟩ t) ⟨b.x, b.y⟩ ((1 - t) * ρ) (mul_nonneg s1 hρ) (by
    have e : sqDist ((⟨a.x, a.y⟩ : Pt).lerp ⟨b.x, b.y⟩ t) ⟨b.x, b.y⟩ = (1 - t) ^ 2 * sqDist ⟨a.x, a.y⟩ ⟨b.x, b.y⟩ := by
      simp only [sqDist, Pt.lerp]; ring
    rw [e, mul_pow]
    exact mul_le_mul_of_nonneg_left hd (sq_nonneg _))
  generalize h ((⟨a.x, a.y⟩ : Pt).lerp ⟨b.x, b.y⟩ t) = H at *
  have e1 : (1 - t) * H ≤ (1 - t) * (a.z + K * (t * ρ)) := mul_le_mul_of_nonneg_left (by linarith) s1
  have e2 : t * H ≤ t * (b.z + K * ((1 - t) * ρ)) := mul_le_mul_of_nonneg_left (by linarith) t0
  have e3 : 0 ≤ K * ρ * (1 - 2 * t) ^ 2 := by positivity
  nlinarith

/-- The rounding of the ends costs half a thousandth and what the height changes in a thousandth. -/
theorem clearWay_rnd {K g : ℚ} {h : Pt → ℚ} (hK : SlopeUpTo K h) {a b : Vec} (hab : ClearWay h g a b) :
    ClearWay h (g + (1 + 2 * K) / 2000) ⟨rnd 3 a.x, rnd 3 a.y, rnd 3 a.z⟩ ⟨rnd 3 b.x, rnd 3 b.y, rnd 3 b.z⟩ := by
  intro t t0 t1
  have h1 := hab t t0 t1
  have key : ∀ u v : ℚ, |u + t * (v - u) - (rnd 3 u + t * (rnd 3 v - rnd 3 u))| ≤ 1 / 2000 := by
    intro u v
    have hu := abs_le.mp (abs_rnd_sub_le 3 u)
    have hv := abs_le.mp (abs_rnd_sub_le 3 v)
    generalize hε : (1 : ℚ) / (2 * 10 ^ 3) = ε at *
    have hε' : ε = 1 / 2000 := by rw [← hε]; norm_num
    rw [← hε', abs_le]
    have e : u + t * (v - u) - (rnd 3 u + t * (rnd 3 v - rnd 3 u)) = -((1 - t) * (rnd 3 u - u) + t * (rnd 3 v - v)) := by ring
    rw [e]
    constructor <;> nlinarith
  have kx := abs_le.mp (key a.x b.x)
  have ky := abs_le.mp (key a.y b.y)
  have kz := abs_le.mp (key a.z b.z)
  have h2 := hK ((⟨rnd 3 a.x, rnd 3 a.y⟩ : Pt).lerp ⟨rnd 3 b.x, rnd 3 b.y⟩ t) ((⟨a.x, a.y⟩ : Pt).lerp ⟨b.x, b.y⟩ t) (1 / 1000)
    (by norm_num) (by
      simp only [sqDist, Pt.lerp]
      have hx := sq_le_sq' kx.1 kx.2
      have hy := sq_le_sq' ky.1 ky.2
      nlinarith)
  dsimp only at h2 ⊢
  linarith [kz.1, kz.2]

/-! ### The moves of the operation -/

theorem refines_chain {gap : ℚ} {seq out : List Pt} (h : Refines gap seq out) :
    List.IsChain (fun a b => sqDist a b ≤ gap ^ 2) out := by
  induction h with
  | single p => simp
  | @cons p q seq ms out along near rest ih =>
    have e : p :: (ms ++ q :: out) = (p :: ms) ++ q :: out := rfl
    rw [e, List.isChain_append]
    have near' : List.IsChain (fun a b => sqDist a b ≤ gap ^ 2) ((p :: ms) ++ [q]) := near
    rw [List.isChain_append] at near'
    refine ⟨near'.1, ih, ?_⟩
    intro x hx y hy
    exact near'.2.2 x hx y (by simpa using hy)

/-- Neighbours in a piece are neighbours in the sequence. -/
theorem chopFrom_isChain {R : Vec → Vec → Prop} {limit : ℚ} : ∀ {seq cur piece : List Vec}, List.IsChain R (cur ++ seq) →
    piece ∈ chopFrom limit cur seq → List.IsChain R piece := by
  intro seq
  induction seq with
  | nil =>
    intro cur piece hc h
    unfold chopFrom at h
    split at h
    · cases h
    · rw [List.mem_singleton] at h
      rw [h]
      simpa using hc
  | cons p seq ih =>
    intro cur piece hc h
    unfold chopFrom at h
    have h1 : List.IsChain R seq := by
      have := (List.isChain_append.mp hc).2.1
      exact this.tail
    split at h
    · split at h
      · exact ih (by simpa using h1) h
      · rcases List.mem_cons.mp h with rfl | h
        · exact (List.isChain_append.mp hc).1
        · exact ih (by simpa using h1) h
    · exact ih (by simpa using hc) h

/-- A straight move between two points that are near each other and not below the height `h`. -/
def NearAbove (h : Pt → ℚ) (gap : ℚ) (c : Motion) : Prop :=
  (c.kind.mot = .rapid ∨ c.kind.mot = .linear) ∧ ∃ a b : Vec, c.start = .fromVec a ∧ c.fin = .fromVec b ∧
    h ⟨a.x, a.y⟩ ≤ a.z ∧ h ⟨b.x, b.y⟩ ≤ b.z ∧ sqDist ⟨a.x, a.y⟩ ⟨b.x, b.y⟩ ≤ gap ^ 2

theorem surfaceCuts_near {h : Pt → ℚ} {gap d : ℚ} : ∀ {ps : List Pt} {a : Vec},
    List.IsChain (fun a b => sqDist a b ≤ gap ^ 2) ((⟨a.x, a.y⟩ : Pt) :: ps) → h ⟨a.x, a.y⟩ ≤ a.z →
      ∀ c ∈ surfaceCuts d (.fromVec a) (ps.map (lift h)), NearAbove h gap c := by
  intro ps
  induction ps with
  | nil => intro a _ _ c hc; cases hc
  | cons p ps ih =>
    intro a hch ha c hc
    rw [List.isChain_cons_cons] at hch
    have hp : h p ≤ max d (h p) := le_max_right _ _
    rcases List.mem_cons.mp hc with rfl | hc
    · exact ⟨.inr rfl, a, ⟨p.x, p.y, max d (h p)⟩, rfl, rfl, ha, hp, hch.1⟩
    · exact ih (a := ⟨p.x, p.y, max d (h p)⟩) hch.2 hp c hc

theorem sqDist_self' (p : Pt) : sqDist p p = 0 := by simp [sqDist]

theorem pieceMoves_near {h : Pt → ℚ} {gap d : ℚ} {j : Job} {pos : AddrVec} {piece : List Pt}
    (hch : List.IsChain (fun a b => sqDist a b ≤ gap ^ 2) piece) (hl : ∀ p ∈ piece, h p ≤ j.opSafeHeight ∧ h p ≤ j.rapidHeight) :
    ∀ c ∈ pieceMoves j d pos (piece.map (lift h)), Rises j.rapidHeight c ∨ TravelsAt j.rapidHeight c ∨ NearAbove h gap c := by
  cases piece with
  | nil => intro c hc; cases hc
  | cons p ps =>
    intro c hc
    simp only [List.map_cons, pieceMoves, List.cons_append, List.nil_append, List.mem_cons] at hc
    obtain ⟨l1, l2⟩ := hl p (by simp)
    rcases hc with rfl | rfl | rfl | hc
    · exact .inl ⟨rfl, rfl⟩
    · exact .inr (.inl ⟨rfl, rfl, rfl⟩)
    · refine .inr (.inr ⟨.inl rfl, ⟨p.x, p.y, j.rapidHeight⟩, ⟨p.x, p.y, j.opSafeHeight⟩, rfl, rfl, l2, l1, ?_⟩)
      rw [sqDist_self']
      positivity
    · exact .inr (.inr (surfaceCuts_near (a := ⟨p.x, p.y, j.opSafeHeight⟩) hch l1 c hc))

theorem mem_piecesMoves' {j : Job} {d : ℚ} {c : Motion} : ∀ {ss : List (List Vec)} {pos : AddrVec},
    c ∈ piecesMoves j d pos ss → ∃ s ∈ ss, ∃ pos', c ∈ pieceMoves j d pos' s := by
  intro ss
  induction ss with
  | nil => intro pos h; cases h
  | cons s ss ih =>
    intro pos h
    unfold piecesMoves at h
    rcases List.mem_append.mp h with h | h
    · exact ⟨s, by simp, _, h⟩
    · obtain ⟨s', hs', h⟩ := ih h
      exact ⟨s', List.mem_cons_of_mem _ hs', h⟩

/-- Every piece of lifted points is a list of lifted points. -/
theorem chop_lifted {h : Pt → ℚ} {limit : ℚ} {seq : List Pt} {piece : List Vec}
    (hp : piece ∈ chopFrom limit [] (seq.map (lift h))) : ∃ ps : List Pt, piece = ps.map (lift h) ∧ ∀ p ∈ ps, h p ≤ limit := by
  obtain ⟨-, h2⟩ := mem_chopFrom (by simp) hp
  have : ∀ v ∈ piece, lift h ⟨v.x, v.y⟩ = v := by
    intro v hv
    rcases (h2 v hv).1 with hx | hx
    · cases hx
    · obtain ⟨q, -, rfl⟩ := List.mem_map.mp hx
      rfl
  refine ⟨piece.map (fun v => ⟨v.x, v.y⟩), ?_, ?_⟩
  · rw [List.map_map]
    conv_lhs => rw [← List.map_id piece]
    exact List.map_congr_left (fun v hv => (this v hv).symm)
  · intro p hp
    obtain ⟨v, hv, rfl⟩ := List.mem_map.mp hp
    have := this v hv
    have h3 := (h2 v hv).2
    rw [← this] at h3
    exact h3

theorem boundary_near {eng : SurfaceEngine} {args : SurfaceArgs} {j : Job} {poly : List Pt} {cs : List Motion} {h : Pt → ℚ} {r : ℚ}
    (hd : ∀ ps, eng.drop ps = ps.map h) (hm : Measures r eng.norm) (hi : 0 < args.interpolationStep)
    (hc : surfaceBoundary eng args j poly = .ok cs) (htop : args.topHeight ≤ 0) (hbot : eng.bottom ≤ args.topHeight)
    (hsafe : 0 ≤ j.opSafeHeight) (hrh : 0 ≤ j.rapidHeight) :
    ∀ c ∈ cs, Rises j.rapidHeight c ∨ TravelsAt j.rapidHeight c ∨ NearAbove h (r * args.interpolationStep) c := by
  obtain ⟨paths, seqs, depths, -, h2, h3, rfl⟩ := surfaceBoundary_ok hd hc
  have hs : ∀ s, args.stepdown = some s → s ≤ 0 := by
    intro s hs
    by_contra hpos
    rw [hs, (C59_violated args.topHeight eng.bottom s (not_le.mp hpos)).1 (by linarith)] at h3
    cases h3
  obtain ⟨passes, e, hl, hp⟩ := passesMoves_split (j := j) (depths := depths)
    (seqs := seqs.map (fun s => s.map (lift h))) depths 0 {}
  rw [e]
  intro c hcm
  obtain ⟨cs, hcs, hcm⟩ := List.mem_flatten.mp hcm
  obtain ⟨k, hk2, rfl⟩ := List.mem_iff_getElem.mp hcs
  obtain ⟨pos, hcs⟩ := hp k _ _ (List.getElem?_eq_getElem (hl ▸ hk2)) (List.getElem?_eq_getElem hk2)
  rw [hcs] at hcm
  obtain ⟨piece, hpiece, pos', hm'⟩ := mem_piecesMoves' hcm
  obtain ⟨s, hs', hch⟩ := List.mem_flatMap.mp hpiece
  obtain ⟨s, hsm, rfl⟩ := List.mem_map.mp hs'
  obtain ⟨path, -, hpath⟩ := forall2_right h2 hsm
  have hchain := refines_chain (C58_refines hi hm hpath)
  obtain ⟨ps, rfl, hps⟩ := chop_lifted hch
  have hlim : passLimit depths (0 + k) ≤ 0 := by
    unfold passLimit
    split
    · rw [List.getD_eq_getElem?_getD, List.getElem?_eq_getElem (by omega), Option.getD_some]
      exact (depths_le h3 hs hbot _ (List.getElem_mem _)).trans htop
    · exact le_refl _
  have hc2 : List.IsChain (fun a b : Vec => sqDist ⟨a.x, a.y⟩ ⟨b.x, b.y⟩ ≤ (r * args.interpolationStep) ^ 2)
      (s.map (lift h)) := by
    rw [List.isChain_map]
    exact hchain
  have hc3 := chopFrom_isChain (cur := []) hc2 hch
  rw [List.isChain_map] at hc3
  refine pieceMoves_near hc3 (fun p hp => ?_) c hm'
  have := (hps p hp).trans hlim
  exact ⟨this.trans hsafe, this.trans hrh⟩

theorem surfaceCuts_connected {d : ℚ} : ∀ {ps : List Vec} {pos : AddrVec}, Connected pos (surfaceCuts d pos ps) := by
  intro ps
  induction ps with
  | nil => intro pos; trivial
  | cons p ps ih => intro pos; exact ⟨rfl, ih⟩

theorem pieceMoves_connected {j : Job} {d : ℚ} {pos : AddrVec} {piece : List Vec} : Connected pos (pieceMoves j d pos piece) := by
  cases piece with
  | nil => trivial
  | cons p ps => exact ⟨rfl, rfl, rfl, surfaceCuts_connected⟩

theorem piecesMoves_connected {j : Job} {d : ℚ} : ∀ {ss : List (List Vec)} {pos : AddrVec},
    Connected pos (piecesMoves j d pos ss) := by
  intro ss
  induction ss with
  | nil => intro pos; trivial
  | cons s ss ih =>
    intro pos
    unfold piecesMoves
    rw [connected_append, ← lastFin_eq]
    exact ⟨pieceMoves_connected, ih⟩

theorem passesMoves_connected {j : Job} {depths : List ℚ} {seqs : List (List Vec)} : ∀ {rest : List ℚ} {i : ℕ} {pos : AddrVec},
    Connected pos (passesMoves j depths seqs i pos rest) := by
  intro rest
  induction rest with
  | nil => intro i pos; trivial
  | cons d rest ih =>
    intro i pos
    unfold passesMoves
    dsimp only
    rw [connected_append, ← lastFin_eq]
    exact ⟨piecesMoves_connected, ih⟩

/-- C100.  Let the height that the drop cutter reports change by at most `K` per unit of length.  Then on its whole way no move of a 3D
surfacing operation gets below it by more than half of `K` times the interpolation step: it rises straight to the rapid height, travels
rapidly at it, or stays above.  (`r` allows for lengths that are measured only nearly, `r = 1` for exact lengths.) -/
theorem C100_between {eng : SurfaceEngine} {k : FaceKernel} {args : SurfaceArgs} {oo : ℚ × ℚ} {io : Option (ℚ × ℚ)}
    {bs : List BoundaryFace} {j : Job} {cs : List Motion} {h : Pt → ℚ} {K r : ℚ} (hd : ∀ ps, eng.drop ps = ps.map h)
    (hK : SlopeUpTo K h) (hK0 : 0 ≤ K) (hm : Measures r eng.norm) (hr : 0 ≤ r) (hi : 0 < args.interpolationStep)
    (htop : args.topHeight ≤ 0) (hbot : eng.bottom ≤ args.topHeight)
    (hsafe : 0 ≤ j.opSafeHeight) (hrh : 0 ≤ j.rapidHeight) (hc : surface3d eng k args oo io bs j = .ok cs) :
    Tracks {} cs ∧ ∀ c ∈ cs, Rises j.rapidHeight c ∨ TravelsAt j.rapidHeight c ∨
      ((c.kind.mot = .rapid ∨ c.kind.mot = .linear) ∧ ∃ a b : Vec, c.start = .fromVec a ∧ c.fin = .fromVec b ∧
        ClearWay h (K * (r * args.interpolationStep) / 2) a b) := by
  obtain ⟨css, rfl, hb⟩ := surface3d_ok hc
  constructor
  · refine tracks_flatten (fun a ha => ?_) _
    obtain ⟨poly, hpoly⟩ := hb a ha
    obtain ⟨paths, seqs, depths, -, -, -, rfl⟩ := surfaceBoundary_ok hd hpoly
    exact tracks_connected passesMoves_connected
  · intro c hcm
    obtain ⟨b, hbm, hcm⟩ := List.mem_flatten.mp hcm
    obtain ⟨poly, hpoly⟩ := hb b hbm
    rcases boundary_near hd hm hi hpoly htop hbot hsafe hrh c hcm with h1 | h1 | ⟨h1, a, b, ha, hb, ha', hb', hab⟩
    · exact .inl h1
    · exact .inr (.inl h1)
    · exact .inr (.inr ⟨h1, a, b, ha, hb, clearWay_chord hK hK0 (mul_nonneg hr hi.le) hab ha' hb'⟩)

/-! ### On the machine -/

theorem pos_of_agrees_vec {a : Vec} {q : Pos} (h : Agrees (.fromVec a) q) : q = Vec.pos ⟨rnd 3 a.x, rnd 3 a.y, rnd 3 a.z⟩ := by
  obtain ⟨h1, h2, h3⟩ := h
  ext1
  · exact h1 _ rfl
  · exact h2 _ rfl
  · exact h3 _ rfl

theorem clearOf_follows {h : Pt → ℚ} {K g R : ℚ} (hK : SlopeUpTo K h) {e : Event} {c : Motion} (hf : FollowsMove e c)
    (hc : Rises R c ∨ TravelsAt R c ∨ ((c.kind.mot = .rapid ∨ c.kind.mot = .linear) ∧
      ∃ a b : Vec, c.start = .fromVec a ∧ c.fin = .fromVec b ∧ ClearWay h g a b)) :
    ClearOf h (g + (1 + 2 * K) / 2000) (rnd 3 R) e := by
  obtain ⟨⟨tgt, ctr, hact, hx, hy, hz, -, -⟩, hst⟩ := hf
  refine ⟨_, tgt, ctr, hact, ?_⟩
  rcases hc with ⟨hk, hfin⟩ | ⟨hk, h1, h2⟩ | ⟨hk, a, b, ha, hb, hab⟩
  · refine .inl ⟨hk, ?_⟩
    rw [hfin] at hx hy hz
    have key : ∀ {s : Option ℚ} {p t : Option ℚ}, AxisAt s p t → (∀ v, s = some v → p = some (rnd 3 v)) → t = p := by
      intro s p t hax hag
      cases hs : s with
      | none => exact hax.2 hs
      | some v => rw [hax.1 v hs, hag v hs]
    ext1
    · exact key hx hst.1
    · exact key hy hst.2.1
    · exact hz.1 _ rfl
  · exact .inr (.inl ⟨hk, hst.2.2 _ h1, hz.1 _ h2⟩)
  · refine .inr (.inr ⟨hk, _, _, ?_, ?_, clearWay_rnd hK hab⟩)
    · rw [ha] at hst
      exact pos_of_agrees_vec hst
    · rw [hb] at hx hy hz
      ext1
      · exact hx.1 _ rfl
      · exact hy.1 _ rfl
      · exact hz.1 _ rfl

/-- C100 on the machine.  In the program of any job with a 3D surfacing operation in it, all moves of the machine in the part of the
operation are clear of the shape on their whole way: they rise straight to the rapid height, travel rapidly at it, or stay above the height
of the shape up to half of the steepest slope `K` times the interpolation step, plus `(1 + 2K) / 2000` for the rounding of the
coordinates. -/
theorem C100_machine {eng : SurfaceEngine} {k : FaceKernel} {args : SurfaceArgs} {oo : ℚ × ℚ} {io : Option (ℚ × ℚ)}
    {bs : List BoundaryFace} {h : Pt → ℚ} {K r : ℚ} (hd : ∀ ps, eng.drop ps = ps.map h)
    (hK : SlopeUpTo K h) (hK0 : 0 ≤ K) (hm : Measures r eng.norm) (hr : 0 ≤ r) (hi : 0 < args.interpolationStep)
    (htop : args.topHeight ≤ 0) (hbot : eng.bottom ≤ args.topHeight)
    {j0 j1 j2 jf : Job} {before after : List Request} (m : Machine) (h0 : InitOK j0) (hsafe : 0 ≤ j0.opSafeHeight)
    (hrh : 0 ≤ j0.rapidHeight) (hn : ∀ v, j0.toolNumber = some v → NumOK v)
    (hok : ChainOK j0 (before ++ surface3dRequest eng k args oo io bs :: after))
    (h1 : j0.chain before = .ok j1) (h2 : (j1.call (surface3dRequest eng k args oo io bs)).2 = .ok j2)
    (h3 : j2.chain after = .ok jf) (hend : m.ended = false) (htool : ∀ n, j0.toolNumber = some n → m.tool = some n.value) :
    ∃ t m' pre part post cs, jf.toGcode = .ok t ∧ runText m t = some (m', pre ++ part ++ post) ∧
      surface3d eng k args oo io bs (j1.updateTool none).2 = .ok cs ∧ (part.filter isMove).length = cs.length ∧
      ∀ e ∈ part, isMove e = true →
        ClearOf h (K * (r * args.interpolationStep) / 2 + (1 + 2 * K) / 2000) (rnd 3 j0.rapidHeight) e := by
  obtain ⟨t, m', pre, part, post, cs, ht, hrun, hgen, hperf, hfol, -⟩ := C94_followed m h0 hn hok h1 h2 h3 hend htool
  have hbase : SameBase j0 (j1.updateTool none).2 := updateTool_base (chain_base (show SameBase j0 j0 from rfl) h1) _
  have hsafe' : j0.opSafeHeight = (j1.updateTool none).2.opSafeHeight := by rw [hbase]
  have hrapid' : j0.rapidHeight = (j1.updateTool none).2.rapidHeight := by rw [hbase]
  have hgen' : surface3d eng k args oo io bs (j1.updateTool none).2 = .ok cs := hgen
  obtain ⟨htr, hcs⟩ := C100_between hd hK hK0 hm hr hi htop hbot (by rw [← hsafe']; exact hsafe)
    (by rw [← hrapid']; exact hrh) hgen'
  refine ⟨t, m', pre, part, post, cs, ht, hrun, hgen', hperf.length_eq, ?_⟩
  intro e he hme
  obtain ⟨c, hc, hfc⟩ := forall2_left (hfol htr) (List.mem_filter.mpr ⟨he, hme⟩)
  have := clearOf_follows hK hfc (hcs c hc)
  rw [← hrapid'] at this
  exact this

/-! ### A ridge -/

/-- A ridge along `x = 4` with slope 1 on both sides. -/
def ridge (p : Pt) : ℚ := max (-5) (-1 - |p.x - 4|)

def ridgeEngine : SurfaceEngine := { hillEngine with drop := fun ps => ps.map ridge }

theorem ridge_slope : SlopeUpTo 1 ridge := by
  intro p q ρ hρ h
  have hx : |p.x - q.x| ≤ ρ := by
    apply abs_le_of_sq_le_sq _ hρ
    unfold sqDist at h
    nlinarith [sq_nonneg (p.y - q.y)]
  unfold ridge
  have h1 : |q.x - 4| ≤ |p.x - 4| + |p.x - q.x| := by
    have := abs_sub_le q.x p.x 4
    rw [abs_sub_comm q.x p.x] at this
    linarith
  rw [one_mul]
  refine max_le ?_ ?_
  · have := le_max_left (-5) (-1 - |q.x - 4|)
    linarith
  · have := le_max_right (-5) (-1 - |q.x - 4|)
    linarith

/-- The hypotheses of C100, and that its bound cannot be improved: with slope 1 and interpolation step 1 a cut over the ridge is half a
unit below it. -/
theorem C100_sharp : ∃ (eng : SurfaceEngine) (args : SurfaceArgs) (b : BoundaryFace) (h : Pt → ℚ) (cs : List Motion),
    (∀ ps, eng.drop ps = ps.map h) ∧ SlopeUpTo 1 h ∧ Measures 1 eng.norm ∧ args.interpolationStep = 1 ∧ args.topHeight ≤ 0 ∧
      eng.bottom ≤ args.topHeight ∧ 0 ≤ demoInit.opSafeHeight ∧ 0 ≤ demoInit.rapidHeight ∧
      surface3d eng idleKernel args (-1, 0) (some (1, 0)) [b] demoInit = .ok cs ∧
      ∃ c ∈ cs, ∃ a b : Vec, c.kind.mot = .linear ∧ c.start = .fromVec a ∧ c.fin = .fromVec b ∧ ∀ g, ClearWay h g a b → 1 / 2 ≤ g := by
  have h : (match surface3d ridgeEngine idleKernel hillArgs (-1, 0) (some (1, 0)) [hillFace] demoInit with
      | .ok cs => decide (∃ c ∈ cs, c.kind.mot = .linear ∧ c.start = .fromVec ⟨7/2, 1, -3/2⟩ ∧ c.fin = .fromVec ⟨9/2, 1, -3/2⟩)
      | .error _ => false) = true := by decide +kernel
  cases hr : surface3d ridgeEngine idleKernel hillArgs (-1, 0) (some (1, 0)) [hillFace] demoInit with
  | error e => rw [hr] at h; cases h
  | ok cs =>
    rw [hr] at h
    obtain ⟨c, hc, h1, h2, h3⟩ := of_decide_eq_true h
    refine ⟨ridgeEngine, hillArgs, hillFace, ridge, cs, fun _ => rfl, ridge_slope, hill_measures, rfl, by decide +kernel,
      by decide +kernel, by decide +kernel, by decide +kernel, hr, c, hc, _, _, h1, h2, h3, ?_⟩
    · intro g hg
      have := hg (1 / 2) (by norm_num) (by norm_num)
      have e : ridge ((⟨7 / 2, 1⟩ : Pt).lerp ⟨9 / 2, 1⟩ (1 / 2)) = -1 := by decide +kernel
      dsimp only at this
      rw [e] at this
      linarith

/-- The other hypotheses of `C100_machine`: the ridge surfaced in a program. -/
example : InitOK demoInit ∧ ∃ j2, ChainOK demoInit ([] ++ surface3dRequest ridgeEngine idleKernel hillArgs (-1, 0) (some (1, 0)) [hillFace] :: []) ∧
    demoInit.chain [] = .ok demoInit ∧
    (demoInit.call (surface3dRequest ridgeEngine idleKernel hillArgs (-1, 0) (some (1, 0)) [hillFace])).2 = .ok j2 := by
  refine ⟨demo_reach.1, ?_⟩
  obtain ⟨cs, -, hr, hc⟩ := call_good (j := demoInit)
    (r := surface3dRequest ridgeEngine idleKernel hillArgs (-1, 0) (some (1, 0)) [hillFace]) rfl rfl (by unfold SafeName; decide)
    (by decide +kernel)
  exact ⟨_, ⟨hr, fun _ _ => trivial⟩, rfl, hc⟩

end CQ
