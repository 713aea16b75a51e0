import Verif.Spec.SurfaceTotal
import Verif.Props.ZigZag
import Verif.Props.Surface
import Verif.Props.SurfaceBoundary
import Verif.Props.Drill

/-! # C118: 3D surfacing that can be made is made -/

namespace CQ

/-! ### zigzag paths do not stand still -/

theorem boundaryRun_moves {boundary run : List Pt} {p : Pt} (hn : boundary.Nodup) (h : BoundaryRun boundary p run) :
    List.IsChain (· ≠ ·) (p :: run) := by
  obtain ⟨-, before, after, rest, rfl, h⟩ := h
  have hp : (p :: (after ++ before)).Nodup := by
    refine (List.Perm.nodup_iff ?_).mp hn
    exact (List.perm_middle).trans (List.perm_append_comm.cons p)
  have hp' : (p :: (run ++ rest)).Nodup := by
    rcases h with h | h
    · rw [← h]; exact hp
    · rw [← h]
      exact (((List.reverse_perm _).cons p).nodup_iff).mpr hp
  have : (p :: run).Nodup := by
    rw [← List.cons_append] at hp'
    exact (List.nodup_append.mp hp').1
  exact List.Pairwise.isChain this

theorem linksAndCuts_moves {boundary : List Pt} (hn : boundary.Nodup) :
    ∀ (lines : List (Pt × Pt)) (b : Pt) (path : List Pt), (∀ l ∈ lines, l.1 ≠ l.2) → LinksAndCuts boundary b lines path →
      List.IsChain (· ≠ ·) (b :: path) := by
  intro lines
  induction lines with
  | nil => intro b path _ h; rw [show path = [] from h]; exact List.isChain_singleton _
  | cons l lines ih =>
    intro b path hl h
    obtain ⟨s, e⟩ := l
    obtain ⟨link, rest, rfl, h1, h2, h3⟩ := h
    have hr := ih e rest (fun x hx => hl x (by simp [hx])) h3
    rw [← List.cons_append, List.isChain_append]
    refine ⟨boundaryRun_moves hn h2, hr, ?_⟩
    intro x hx y hy
    have hx' : x = s := by
      rw [List.getLast?_cons, h1] at hx
      simpa using hx.symm
    have hy' : y = e := by simpa using hy.symm
    rw [hx', hy']
    exact hl (s, e) (by simp)

theorem cutsLines_moves {boundary path : List Pt} {lines : List (Pt × Pt)} (hn : boundary.Nodup) (hl : ∀ l ∈ lines, l.1 ≠ l.2)
    (h : CutsLines boundary lines path) : List.IsChain (· ≠ ·) path := by
  cases lines with
  | nil => rw [show path = [] from h]; exact .nil
  | cons l lines =>
    obtain ⟨s, e⟩ := l
    obtain ⟨rest, rfl, h⟩ := h
    rw [List.isChain_cons_cons]
    exact ⟨hl (s, e) (by simp), linksAndCuts_moves hn _ _ _ (fun x hx => hl x (by simp [hx])) h⟩

theorem lineEnds_different {lines : List (Pt × Pt)} (h : (lineEnds lines).Nodup) : ∀ l ∈ lines, l.1 ≠ l.2 := by
  intro l hl he
  obtain ⟨pre, post, rfl⟩ := List.append_of_mem hl
  simp only [lineEnds, List.flatMap_append, List.flatMap_cons] at h
  have := (List.nodup_append.mp (List.nodup_append.mp h).2.1).1
  simp [he] at this

theorem sameLines_different {lines scanlines : List (Pt × Pt)} (h : SameLines lines scanlines)
    (hd : ∀ l ∈ scanlines, l.1 ≠ l.2) : ∀ l ∈ lines, l.1 ≠ l.2 := by
  obtain ⟨ls, hp, hf⟩ := h
  intro l hl
  obtain ⟨l', hl', e⟩ := forall₂_mem_left hf hl
  have := hd l' (hp.mem_iff.mp hl')
  rcases e with rfl | rfl
  · exact this
  · exact fun h => this h.symm

/-! ### the zigzag over a polygon -/

/-- The zigzag over scanlines in ordinary position: made exactly if there are any and all end on the outline. -/
theorem link_cases {poly : List Pt} {lines : List (Pt × Pt)} (ho : OrdinaryScan poly lines) :
    (∀ q ∈ lineEnds lines, NearOutline poly q) ∧ (∃ r, linkScanpoints (scanpoints lines) [poly] = .ok r) ∨
      (∃ q ∈ lineEnds lines, ¬ NearOutline poly q) ∧ linkScanpoints (scanpoints lines) [poly] = .error .assertionError := by
  obtain ⟨hb, hp, hd⟩ := ho
  rw [scanpoints_eq]
  by_cases hall : ∀ q ∈ lineEnds lines, NearOutline poly q
  · left
    refine ⟨hall, ?_⟩
    obtain ⟨lps, owner, -, h, -⟩ := C64_sorted_partial (points := lineEnds lines) (boundaries := [poly])
      (by simpa using hb) hp (by simpa using hd) (fun q hq => ⟨poly, by simp, hall q hq⟩)
    exact ⟨_, h⟩
  · right
    have hex : ∃ q ∈ lineEnds lines, ¬ NearOutline poly q := by
      by_contra hne
      exact hall (fun q hq => by_contra (fun h => hne ⟨q, hq, h⟩))
    refine ⟨hex, ?_⟩
    obtain ⟨q, hq, hno⟩ := hex
    obtain ⟨s, f1, f2⟩ : ∃ s, linkBoundary 0 (lineEnds lines) [] poly = .ok s ∧ q ∈ s.remaining := by
      cases poly with
      | nil => exact ⟨_, rfl, hq⟩
      | cons v vs =>
        obtain ⟨s, blocks, f1, -, -, -, f5, f6, -⟩ := linkPolyline_sorted (k := 0) (B := []) vs v []
          ⟨lineEnds lines, { polygon := v :: vs }, []⟩ (by simp) hb (by simp) hp (fun q hq => ⟨by simp, hd q hq⟩)
        refine ⟨s, f1, ?_⟩
        rcases List.mem_append.mp (f6.mem_iff.mp hq) with h | h
        · obtain ⟨b, hb', hqb⟩ := List.mem_flatten.mp h
          obtain ⟨seg, hseg, h'⟩ := forall₂_mem_right f5 hb'
          exact absurd ⟨seg, hseg, h'.2 q hqb⟩ hno
        · exact h
    have hne : s.remaining ≠ [] := fun h => by rw [h] at f2; cases f2
    simp only [linkScanpoints, linkBoundaries, f1, ok_bind, if_pos hne]
    rfl

/-- The path over ordinary scanlines is one path that never stands still. -/
theorem zigzag_cases (eng : ScanClipper) {poly : List Pt} {step : ℚ} {lines : List (Pt × Pt)} (hs : ScansTo eng poly step lines)
    (ho : OrdinaryScan poly lines) :
    lines ≠ [] ∧ (∀ q ∈ lineEnds lines, NearOutline poly q) ∧
      (∃ path, zigzag eng [poly] step = .ok [path] ∧ List.IsChain (· ≠ ·) path ∧ 2 ≤ path.length) ∨
    (∃ q ∈ lineEnds lines, ¬ NearOutline poly q) ∧ zigzag eng [poly] step = .error .assertionError ∨
    lines = [] ∧ zigzag eng [poly] step = .error .indexError := by
  obtain ⟨ts, h1, h2⟩ := hs
  rcases link_cases ho with ⟨hall, ⟨lps, owner⟩, h3⟩ | ⟨hex, h3⟩
  · by_cases hl : lines = []
    · right; right
      refine ⟨hl, ?_⟩
      simp only [zigzag, h1, h2, h3, ok_bind]
      rw [hl]
      rfl
    · left
      refine ⟨hl, hall, ?_⟩
      obtain ⟨lp, ls, path, rfl, hperm, -, hr, hc, hsame⟩ := C61_route hl h3
      refine ⟨path, by simp only [zigzag, h1, h2, h3, ok_bind, hr], ?_, ?_⟩
      · refine cutsLines_moves ?_ (sameLines_different hsame (lineEnds_different ho.2.1)) hc
        rw [hperm.nodup_iff, List.nodup_append]
        refine ⟨ho.2.1, ho.1, ?_⟩
        rintro a ha b hb rfl
        exact ho.2.2 a ha hb
      · cases ls with
        | nil =>
          obtain ⟨ls', hp, hf⟩ := hsame
          cases hf
          exact absurd hp.symm.eq_nil hl
        | cons l ls =>
          obtain ⟨s, e⟩ := l
          obtain ⟨rest, rfl, -⟩ := hc
          simp
  · right; left
    refine ⟨hex, ?_⟩
    simp only [zigzag, h1, h2, h3, ok_bind]
    rfl

/-! ### heights and passes -/

theorem mergeSequence_total : ∀ (s : List Pt) (zs : List ℚ), s.length ≤ zs.length →
    ∃ vs, mergeSequence s zs = .ok (vs, zs.drop s.length) := by
  intro s
  induction s with
  | nil => intro zs _; exact ⟨[], by simp [mergeSequence]⟩
  | cons p s ih =>
    intro zs h
    cases zs with
    | nil => simp at h
    | cons z zs =>
      obtain ⟨vs, hv⟩ := ih zs (by simpa using h)
      exact ⟨⟨p.x, p.y, z⟩ :: vs, by simp only [mergeSequence, hv, ok_bind]; rfl⟩

theorem mergeHeights_total : ∀ (ss : List (List Pt)) (zs : List ℚ), ss.flatten.length ≤ zs.length →
    ∃ vss, mergeHeights ss zs = .ok vss := by
  intro ss
  induction ss with
  | nil => intro zs _; exact ⟨[], rfl⟩
  | cons s ss ih =>
    intro zs h
    rw [List.flatten_cons, List.length_append] at h
    obtain ⟨vs, hv⟩ := mergeSequence_total s zs (by omega)
    obtain ⟨vss, hvs⟩ := ih (zs.drop s.length) (by rw [List.length_drop]; omega)
    exact ⟨vs :: vss, by simp only [mergeHeights, hv, hvs, ok_bind]⟩

theorem arange_nonempty {a b s : ℚ} : arange a b s ≠ [] ↔ 0 < s ∧ a < b ∨ s < 0 ∧ b < a := by
  unfold arange
  rw [ne_eq, List.map_eq_nil_iff, List.range_eq_nil, Int.toNat_eq_zero, not_le, Int.ceil_pos, div_pos_iff]
  constructor
  · rintro (⟨h1, h2⟩ | ⟨h1, h2⟩)
    · exact Or.inl ⟨h2, by linarith⟩
    · exact Or.inr ⟨h2, by linarith⟩
  · rintro (⟨h1, h2⟩ | ⟨h1, h2⟩)
    · exact Or.inl ⟨by linarith, h1⟩
    · exact Or.inr ⟨by linarith, h1⟩

/-- There are passes exactly if there is a first one. -/
theorem surfaceDepths_cases (stepdown : Option ℚ) (top bottom : ℚ) :
    HasFirstPass stepdown top bottom ∧ (∃ ds, surfaceDepths stepdown top bottom = .ok ds) ∨
      ¬ HasFirstPass stepdown top bottom ∧ surfaceDepths stepdown top bottom = .error .indexError := by
  cases stepdown with
  | none => exact Or.inl ⟨fun s h => (by cases h), _, rfl⟩
  | some s =>
    by_cases hs : s = 0
    · subst hs
      exact Or.inl ⟨fun s h h0 => absurd (Option.some.inj h).symm h0, [bottom], by simp [surfaceDepths]⟩
    · have hiff : HasFirstPass (some s) top bottom ↔ arange (top + s) bottom s ≠ [] := by
        rw [arange_nonempty]
        exact ⟨fun h => h s rfl hs, fun h s' e _ => by cases e; exact h⟩
      rw [hiff]
      by_cases ha : arange (top + s) bottom s = []
      · exact Or.inr ⟨not_not.mpr ha, by simp [surfaceDepths, hs, ha]⟩
      · refine Or.inl ⟨ha, ?_⟩
        obtain ⟨l, hl⟩ : ∃ l, (arange (top + s) bottom s).getLast? = some l :=
          ⟨_, List.getLast?_eq_some_getLast ha⟩
        simp only [surfaceDepths, if_neg hs, hl]
        split <;> exact ⟨_, rfl⟩

/-! ### one boundary -/

theorem scan_cases (eng : ScanClipper) (poly : List Pt) (step : ℚ) :
    step = 0 ∧ scanTemplates eng [poly] step = .error .zeroDivision ∨
      step ≠ 0 ∧ ∃ ts, scanTemplates eng [poly] step = .ok ts := by
  by_cases h : step = 0
  · exact Or.inl ⟨h, by simp [scanTemplates, h]⟩
  · refine Or.inr ⟨h, ?_⟩
    simp only [scanTemplates, if_neg h]
    exact ⟨_, rfl⟩

/-- Everything that can happen to one boundary. -/
theorem surfaceBoundary_cases {eng : SurfaceEngine} (ha : AnswersAll eng) {args : SurfaceArgs} {poly : List Pt}
    (ho : ∀ lines, ScansTo eng.scan poly (args.toolDiameter * args.stepover) lines → OrdinaryScan poly lines) (j : Job) :
    CanSurface eng args poly ∧ (∃ cs, surfaceBoundary eng args j poly = .ok cs) ∨
      ∃ x, CannotSurface eng args poly x ∧ surfaceBoundary eng args j poly = .error x := by
  rcases scan_cases eng.scan poly (args.toolDiameter * args.stepover) with ⟨h0, ht⟩ | ⟨h0, ts, ht⟩
  · right
    refine ⟨_, Or.inl ⟨h0, rfl⟩, ?_⟩
    simp only [surfaceBoundary, zigzag, ht]
    rfl
  · cases hc : eng.scan.clip [poly] ts with
    | error x =>
      right
      refine ⟨x, Or.inr (Or.inl ⟨ts, ht, hc⟩), ?_⟩
      simp only [surfaceBoundary, zigzag, ht, hc, ok_bind]
      rfl
    | ok lines =>
      have hs : ScansTo eng.scan poly (args.toolDiameter * args.stepover) lines := ⟨ts, ht, hc⟩
      rcases zigzag_cases eng.scan hs (ho lines hs) with ⟨hl, hall, path, hz, hch, hlen⟩ | ⟨hex, hz⟩ | ⟨hl, hz⟩
      · obtain ⟨p, q, rest, rfl⟩ : ∃ p q rest, path = p :: q :: rest := by
          match path, hlen with
          | p :: q :: rest, _ => exact ⟨p, q, rest, rfl⟩
        by_cases hi : args.interpolationStep = 0
        · right
          refine ⟨.zeroDivision, Or.inr (Or.inr ⟨lines, hs, Or.inr (Or.inr ⟨hl, hall, Or.inl ⟨hi, rfl⟩⟩)⟩), ?_⟩
          have hpq : p ≠ q := (List.isChain_cons_cons.mp hch).1
          have hv : (eng.strict && decide ((⟨q.x - p.x, q.y - p.y⟩ : Pt) = ⟨0, 0⟩)) = false := by
            have : (⟨q.x - p.x, q.y - p.y⟩ : Pt) ≠ ⟨0, 0⟩ := by
              intro h
              rw [Pt.mk.injEq] at h
              exact hpq (Pt.ext (by linarith [h.1]) (by linarith [h.2]))
            simp [this]
          have hin : interpolateSequence eng args.interpolationStep (p :: q :: rest) = .error .zeroDivision := by
            simp only [interpolateSequence, interpolateFrom, hv, Bool.false_eq_true, if_false, hi, if_true]
            rfl
          simp only [surfaceBoundary, hz, ok_bind, mapE, hin]
          rfl
        · obtain ⟨out, hin⟩ : ∃ out, interpolateSequence eng args.interpolationStep (p :: q :: rest) = .ok out := by
            obtain ⟨out, h⟩ := interpolateFrom_total (eng := eng) hi (.inl hch)
            exact ⟨p :: out, by rw [interpolateSequence, h]; rfl⟩
          have hm : mapE (interpolateSequence eng args.interpolationStep) [p :: q :: rest] = .ok [out] :=
            mapE_ok.mpr (.cons hin .nil)
          obtain ⟨vss, hv⟩ := mergeHeights_total [out] (eng.drop [out].flatten) (by rw [ha])
          rcases surfaceDepths_cases args.stepdown args.topHeight eng.bottom with ⟨hf, ds, hd⟩ | ⟨hf, hd⟩
          · refine Or.inl ⟨⟨lines, hs, hl, hall, hi, hf⟩, ?_⟩
            simp only [surfaceBoundary, hz, ok_bind, hm, hv, hd]
            exact ⟨_, rfl⟩
          · right
            refine ⟨.indexError, Or.inr (Or.inr ⟨lines, hs, Or.inr (Or.inr ⟨hl, hall, Or.inr ⟨hi, hf, rfl⟩⟩)⟩), ?_⟩
            simp only [surfaceBoundary, hz, ok_bind, hm, hv, hd]
            rfl
      · right
        refine ⟨_, Or.inr (Or.inr ⟨lines, hs, Or.inl ⟨hex, rfl⟩⟩), ?_⟩
        simp only [surfaceBoundary, hz]
        rfl
      · right
        refine ⟨_, Or.inr (Or.inr ⟨lines, hs, Or.inr (Or.inl ⟨hl, rfl⟩)⟩), ?_⟩
        simp only [surfaceBoundary, hz]
        rfl

theorem scansTo_unique {eng : ScanClipper} {poly : List Pt} {step : ℚ} {l l' : List (Pt × Pt)} (h : ScansTo eng poly step l)
    (h' : ScansTo eng poly step l') : l = l' := by
  obtain ⟨ts, a, b⟩ := h
  obtain ⟨ts', a', b'⟩ := h'
  rw [a] at a'
  cases a'
  rw [b] at b'
  cases b'
  rfl

theorem scansTo_step {eng : ScanClipper} {poly : List Pt} {step : ℚ} {ts : List (Pt × Pt)}
    (h : scanTemplates eng [poly] step = .ok ts) : step ≠ 0 := by
  rintro rfl
  simp [scanTemplates] at h

theorem can_not_cannot {eng : SurfaceEngine} {args : SurfaceArgs} {poly : List Pt} (h : CanSurface eng args poly) {x : Err} :
    ¬ CannotSurface eng args poly x := by
  obtain ⟨lines, hs, hl, hall, hi, hf⟩ := h
  rintro (⟨h0, -⟩ | ⟨ts, ht, hc⟩ | ⟨lines', hs', h⟩)
  · obtain ⟨ts, ht, -⟩ := hs
    exact scansTo_step ht h0
  · obtain ⟨ts', ht', hc'⟩ := hs
    rw [ht] at ht'
    cases ht'
    rw [hc] at hc'
    cases hc'
  · cases scansTo_unique hs hs'
    rcases h with ⟨⟨q, hq, hn⟩, -⟩ | ⟨h, -⟩ | ⟨-, -, ⟨h, -⟩ | ⟨-, h, -⟩⟩
    · exact hn (hall q hq)
    · exact hl h
    · exact hi h
    · exact h hf

theorem cannot_unique {eng : SurfaceEngine} {args : SurfaceArgs} {poly : List Pt} {x y : Err}
    (h : CannotSurface eng args poly x) (h' : CannotSurface eng args poly y) : x = y := by
  rcases h with ⟨h0, rfl⟩ | ⟨ts, ht, hc⟩ | ⟨lines, hs, h⟩
  · rcases h' with ⟨-, rfl⟩ | ⟨ts, ht, -⟩ | ⟨lines, ⟨ts, ht, -⟩, -⟩
    · rfl
    · exact absurd h0 (scansTo_step ht)
    · exact absurd h0 (scansTo_step ht)
  · rcases h' with ⟨h0, rfl⟩ | ⟨ts', ht', hc'⟩ | ⟨lines, ⟨ts', ht', hc'⟩, -⟩
    · exact absurd h0 (scansTo_step ht)
    · rw [ht] at ht'; cases ht'; rw [hc] at hc'; cases hc'; rfl
    · rw [ht] at ht'; cases ht'; rw [hc] at hc'; cases hc'
  · rcases h' with ⟨h0, rfl⟩ | ⟨ts', ht', hc'⟩ | ⟨lines', hs', h'⟩
    · obtain ⟨ts, ht, -⟩ := hs
      exact absurd h0 (scansTo_step ht)
    · obtain ⟨ts, ht, hc⟩ := hs
      rw [ht] at ht'; cases ht'; rw [hc] at hc'; cases hc'
    · cases scansTo_unique hs hs'
      rcases h with ⟨⟨q, hq, hn⟩, rfl⟩ | ⟨h, rfl⟩ | ⟨hl, hall, h⟩
      · rcases h' with ⟨-, rfl⟩ | ⟨h', -⟩ | ⟨-, h', -⟩
        · rfl
        · subst h'; simp [lineEnds] at hq
        · exact absurd (h' q hq) hn
      · rcases h' with ⟨⟨q, hq, -⟩, -⟩ | ⟨-, rfl⟩ | ⟨h', -⟩
        · subst h; simp [lineEnds] at hq
        · rfl
        · exact absurd h h'
      · rcases h' with ⟨⟨q, hq, hn⟩, -⟩ | ⟨h', -⟩ | ⟨-, -, h'⟩
        · exact absurd (hall q hq) hn
        · exact absurd h' hl
        · rcases h with ⟨hi, rfl⟩ | ⟨hi, -, rfl⟩ <;> rcases h' with ⟨hi', rfl⟩ | ⟨hi', -, rfl⟩
          · rfl
          · exact absurd hi hi'
          · exact absurd hi' hi
          · rfl

/-- C118, for one boundary whose scanlines are in ordinary position: it is surfaced exactly if it can be. -/
theorem C118_boundary_made {eng : SurfaceEngine} (ha : AnswersAll eng) {args : SurfaceArgs} {poly : List Pt}
    (ho : ∀ lines, ScansTo eng.scan poly (args.toolDiameter * args.stepover) lines → OrdinaryScan poly lines) (j : Job) :
    (∃ cs, surfaceBoundary eng args j poly = .ok cs) ↔ CanSurface eng args poly := by
  rcases surfaceBoundary_cases ha ho j with ⟨h1, h2⟩ | ⟨x, h1, h2⟩
  · exact ⟨fun _ => h1, fun _ => h2⟩
  · refine ⟨fun ⟨cs, h⟩ => ?_, fun h => absurd h1 (can_not_cannot h)⟩
    rw [h2] at h; cases h

/-- C118, for one boundary: the exception tells why it is refused. -/
theorem C118_boundary_refused {eng : SurfaceEngine} (ha : AnswersAll eng) {args : SurfaceArgs} {poly : List Pt}
    (ho : ∀ lines, ScansTo eng.scan poly (args.toolDiameter * args.stepover) lines → OrdinaryScan poly lines) (j : Job) (x : Err) :
    surfaceBoundary eng args j poly = .error x ↔ CannotSurface eng args poly x := by
  rcases surfaceBoundary_cases ha ho j with ⟨h1, cs, h2⟩ | ⟨y, h1, h2⟩
  · refine ⟨fun h => ?_, fun h => absurd h (can_not_cannot h1)⟩
    rw [h2] at h; cases h
  · refine ⟨fun h => ?_, fun h => ?_⟩
    · rw [h2] at h; cases h; exact h1
    · rw [h2, cannot_unique h1 h]

/-! ### the operation -/

theorem flattenEdges_total {w : List Edge} (h : Flattenable w) : ∃ vs, flattenEdges w = .ok vs := by
  induction w with
  | nil => exact ⟨[], rfl⟩
  | cons e es ih =>
    obtain ⟨vs, hv⟩ := ih (fun x hx => h x (by simp [hx]))
    rcases h e (by simp) with hl | hc
    · simp only [flattenEdges, if_pos hl, ok_bind, hv]
      exact ⟨_, rfl⟩
    · have hnl : e.geom ≠ .line := by
        rcases hc with hc | hc | hc <;> rw [hc] <;> decide
      simp only [flattenEdges, if_neg hnl, if_pos (show e.geom = .arc ∨ e.geom = .circle ∨ e.geom = .offset from hc), ok_bind, hv]
      exact ⟨_, rfl⟩

/-- A closed wire has a polygon exactly if all its edges can be flattened; otherwise there is a `ValueError`. -/
theorem wirePolygon_cases (w : List Edge) :
    Flattenable w ∧ (∃ poly, wirePolygon w true = .ok poly) ∨ ¬ Flattenable w ∧ wirePolygon w true = .error .valueError := by
  by_cases h : Flattenable w
  · obtain ⟨vs, hv⟩ := flattenEdges_total h
    exact Or.inl ⟨h, _, by simp only [wirePolygon, hv, ok_bind, if_true]; rfl⟩
  · refine Or.inr ⟨h, ?_⟩
    induction w with
    | nil => exact absurd (fun e he => by cases he) h
    | cons e es ih =>
      by_cases he : e.geom = .line ∨ e.curved
      · have hes : ¬ Flattenable es := by
          intro hf
          apply h
          intro x hx
          rcases List.mem_cons.mp hx with rfl | hx
          · exact he
          · exact hf x hx
        have h1 := ih hes
        have h2 : flattenEdges es = .error .valueError := by
          cases hf : flattenEdges es with
          | error y => simp only [wirePolygon, hf] at h1; cases h1; rfl
          | ok vs => simp only [wirePolygon, hf, ok_bind, if_true] at h1; cases h1
        rcases he with hl | hc
        · simp only [wirePolygon, flattenEdges, if_pos hl, ok_bind, h2]; rfl
        · have hnl : e.geom ≠ .line := by
            rcases hc with hc | hc | hc <;> rw [hc] <;> decide
          simp only [wirePolygon, flattenEdges, if_neg hnl,
            if_pos (show e.geom = .arc ∨ e.geom = .circle ∨ e.geom = .offset from hc), ok_bind, h2]
          rfl
      · rw [not_or] at he
        exact C87_refused (before := []) (by simp) he true

theorem assembleFaces_outers {k : FaceKernel} : ∀ {inner outers : List (List Edge)} {fs : List (List Edge × List (List Edge))},
    assembleFaces k inner outers = .ok fs → fs.map Prod.fst = outers := by
  intro inner outers
  induction outers generalizing inner with
  | nil => intro fs h; cases h; rfl
  | cons o os ih =>
    intro fs h
    unfold assembleFaces at h
    obtain ⟨_, -, h⟩ := bind_ok.mp h
    obtain ⟨rest, h1, h⟩ := bind_ok.mp h
    cases h
    simp [ih h1]

theorem assembleFaces_error {k : FaceKernel} : ∀ {inner outers : List (List Edge)} {x : Err},
    assembleFaces k inner outers = .error x → ∃ o hs, k.makeFace o hs = .error x := by
  intro inner outers
  induction outers generalizing inner with
  | nil => intro x h; cases h
  | cons o os ih =>
    intro x h
    unfold assembleFaces at h
    cases hm : k.makeFace o (inner.filter (fun i => k.inside i o)) with
    | error y => simp only [hm] at h; cases h; exact ⟨_, _, hm⟩
    | ok u =>
      simp only [hm, ok_bind] at h
      cases hr : assembleFaces k (inner.filter (fun i => !k.inside i o)) os with
      | error y => rw [hr] at h; cases h; exact ih hr
      | ok rest => rw [hr] at h; cases h

/-- The exception of a boundary that is not offset. -/
theorem offsetBoundary_error {k : FaceKernel} {d : ℚ} {oo : ℚ × ℚ} {io : Option (ℚ × ℚ)} {b : BoundaryFace} {x : Err}
    (h : offsetBoundary k d oo io b = .error x) :
    b.flat = false ∧ x = .assertionError ∨ io = none ∧ x = .typeError ∨ (∃ w a, k.offset2D w a = .error x) ∨
      ∃ o hs, k.makeFace o hs = .error x := by
  unfold offsetBoundary at h
  split at h
  · rename_i hf; cases h; exact Or.inl ⟨by simpa using hf, rfl⟩
  · cases io with
    | none => cases h; exact Or.inr (Or.inl ⟨rfl, rfl⟩)
    | some io =>
      right; right
      simp only at h
      cases h1 : k.offset2D b.outer (d * oo.1 + oo.2) with
      | error y => rw [h1] at h; cases h; exact Or.inl ⟨_, _, h1⟩
      | ok outers =>
        rw [h1, ok_bind] at h
        cases h2 : mapE (fun w => k.offset2D w (d * io.1 + io.2)) b.inners with
        | error y =>
          rw [h2] at h; cases h
          obtain ⟨w, -, hw⟩ := mapE_exception h2
          exact Or.inl ⟨_, _, hw⟩
        | ok inners =>
          rw [h2, ok_bind] at h
          right
          cases h3 : mapE (fun w => k.makeFace w []) outers with
          | error y =>
            rw [h3] at h; cases h
            obtain ⟨w, -, hw⟩ := mapE_exception h3
            exact ⟨_, _, hw⟩
          | ok us =>
            rw [h3, ok_bind] at h
            cases h4 : mapE (fun w => k.makeFace w []) inners.flatten with
            | error y =>
              rw [h4] at h; cases h
              obtain ⟨w, -, hw⟩ := mapE_exception h4
              exact ⟨_, _, hw⟩
            | ok us' =>
              rw [h4, ok_bind] at h
              exact assembleFaces_error h

theorem offsetBoundary_outlines {k : FaceKernel} {d : ℚ} {oo : ℚ × ℚ} {io : Option (ℚ × ℚ)} {bs : List BoundaryFace}
    {faces : List (List (List Edge × List (List Edge)))} (h : mapE (offsetBoundary k d oo io) bs = .ok faces)
    {f : List Edge × List (List Edge)} (hf : f ∈ faces.flatten) : SurfacedOutline k (d * oo.1 + oo.2) bs f.1 := by
  obtain ⟨fs, hfs, hf⟩ := List.mem_flatten.mp hf
  obtain ⟨b, hb, ho⟩ := mapE_mem h hfs
  unfold offsetBoundary at ho
  split at ho
  · cases ho
  · cases io with
    | none => cases ho
    | some io =>
      simp only at ho
      obtain ⟨outers, h1, ho⟩ := bind_ok.mp ho
      obtain ⟨inners, -, ho⟩ := bind_ok.mp ho
      obtain ⟨_, -, ho⟩ := bind_ok.mp ho
      obtain ⟨_, -, ho⟩ := bind_ok.mp ho
      refine ⟨b, hb, outers, h1, ?_⟩
      rw [← assembleFaces_outers ho]
      exact List.mem_map_of_mem hf

theorem call_made {j : Job} {r : Request} (hp : r.pre j = .ok ()) {cs : List Motion} (h : r.gen (j.updateTool r.tool).2 = .ok cs) :
    ∃ j', (j.call r).2 = .ok j' := by
  simp only [Job.call, hp, h]
  exact ⟨_, rfl⟩

/-- C118 (as far as it holds, see the violations below).  With a kernel and a drop cutter that answer, flat boundaries and an
inner offset, surfacing succeeds if every outline consists of edges that can be flattened, to a polygon that can be surfaced and
whose scanlines are in ordinary position.  Missing: outlines that no scanline hits, or that scanlines hit in their first edge,
and positive stepdowns are refused. -/
theorem C118_made_partial {eng : SurfaceEngine} {k : FaceKernel} {args : SurfaceArgs} {oo io : ℚ × ℚ} {bs : List BoundaryFace}
    (ha : AnswersAll eng) (hk : KernelWorks k) (hf : ∀ b ∈ bs, b.flat = true)
    (hw : ∀ w, SurfacedOutline k (args.toolDiameter * oo.1 + oo.2) bs w → Flattenable w ∧
      ∀ poly, wirePolygon w true = .ok poly → CanSurface eng args poly ∧
        ∀ lines, ScansTo eng.scan poly (args.toolDiameter * args.stepover) lines → OrdinaryScan poly lines) (j : Job) :
    (∃ cs, surface3d eng k args oo (some io) bs j = .ok cs) ∧
      ∃ j', (j.call (surface3dRequest eng k args oo (some io) bs)).2 = .ok j' := by
  have key : ∀ j, ∃ cs, surface3d eng k args oo (some io) bs j = .ok cs := by
    intro j
    obtain ⟨faces, h1⟩ : ∃ faces, mapE (offsetBoundary k args.toolDiameter oo (some io)) bs = .ok faces := by
      refine mapE_total (fun b hb => ?_)
      cases ho : offsetBoundary k args.toolDiameter oo (some io) b with
      | ok fs => exact ⟨fs, rfl⟩
      | error x =>
        exfalso
        rcases offsetBoundary_error ho with ⟨h, -⟩ | ⟨h, -⟩ | ⟨w, a, h⟩ | ⟨o, hs, h⟩
        · rw [hf b hb] at h; cases h
        · cases h
        · obtain ⟨ws, h'⟩ := hk.1 w a
          rw [h] at h'; cases h'
        · rw [hk.2] at h; cases h
    obtain ⟨css, h2⟩ : ∃ css, mapE (fun f : List Edge × List (List Edge) => do
        let polygon ← wirePolygon f.1 true
        surfaceBoundary eng args j polygon) faces.flatten = .ok css := by
      refine mapE_total (fun f hfm => ?_)
      obtain ⟨g1, g2⟩ := hw _ (offsetBoundary_outlines h1 hfm)
      rcases wirePolygon_cases f.1 with ⟨-, poly, hp⟩ | ⟨hn, -⟩
      · obtain ⟨g3, g4⟩ := g2 poly hp
        obtain ⟨cs, hc⟩ := (C118_boundary_made ha g4 j).mpr g3
        exact ⟨cs, by simp only [hp, ok_bind, hc]⟩
      · exact absurd g1 hn
    unfold surface3d
    rw [h1, ok_bind, h2]
    exact ⟨_, rfl⟩
  refine ⟨key j, ?_⟩
  obtain ⟨cs, hc⟩ := key (j.updateTool none).2
  exact call_made rfl hc

/-- C118.  Every refusal has one of these reasons, with this exception: a boundary is not flat (`AssertionError`), there is no
inner offset (`TypeError`), the kernel fails, an outline has an edge of another kind (`ValueError`), or its polygon cannot be
surfaced. -/
theorem C118_refused {eng : SurfaceEngine} {k : FaceKernel} {args : SurfaceArgs} {oo : ℚ × ℚ} {io : Option (ℚ × ℚ)}
    {bs : List BoundaryFace} {j : Job} {x : Err} (ha : AnswersAll eng)
    (ho : ∀ w, SurfacedOutline k (args.toolDiameter * oo.1 + oo.2) bs w → ∀ poly, wirePolygon w true = .ok poly →
      ∀ lines, ScansTo eng.scan poly (args.toolDiameter * args.stepover) lines → OrdinaryScan poly lines)
    (h : surface3d eng k args oo io bs j = .error x) :
    (∃ b ∈ bs, b.flat = false) ∧ x = .assertionError ∨ io = none ∧ x = .typeError ∨
    (∃ w a, k.offset2D w a = .error x) ∨ (∃ o hs, k.makeFace o hs = .error x) ∨
    ∃ w, SurfacedOutline k (args.toolDiameter * oo.1 + oo.2) bs w ∧ (¬ Flattenable w ∧ x = .valueError ∨
      ∃ poly, wirePolygon w true = .ok poly ∧ CannotSurface eng args poly x) := by
  unfold surface3d at h
  cases h1 : mapE (offsetBoundary k args.toolDiameter oo io) bs with
  | error y =>
    rw [h1] at h
    cases h
    obtain ⟨b, hb, hbe⟩ := mapE_exception h1
    rcases offsetBoundary_error hbe with ⟨h, rfl⟩ | h | h | h
    · exact Or.inl ⟨⟨b, hb, h⟩, rfl⟩
    · exact Or.inr (Or.inl h)
    · exact Or.inr (Or.inr (Or.inl h))
    · exact Or.inr (Or.inr (Or.inr (Or.inl h)))
  | ok faces =>
    rw [h1, ok_bind] at h
    right; right; right; right
    cases h2 : mapE (fun f : List Edge × List (List Edge) => do
        let polygon ← wirePolygon f.1 true
        surfaceBoundary eng args j polygon) faces.flatten with
    | ok css => rw [h2] at h; cases h
    | error y =>
      rw [h2] at h
      cases h
      obtain ⟨f, hfm, he⟩ := mapE_exception h2
      have hout := offsetBoundary_outlines h1 hfm
      refine ⟨f.1, hout, ?_⟩
      rcases wirePolygon_cases f.1 with ⟨-, poly, hp⟩ | ⟨hn, hp⟩
      · rw [hp, ok_bind] at he
        exact Or.inr ⟨poly, hp, (C118_boundary_refused ha (ho _ hout poly hp) j x).mp he⟩
      · rw [hp] at he
        cases he
        exact Or.inl ⟨hn, rfl⟩

/-! ### Examples and violations -/

/-- The smallest and the largest of the numbers. -/
def smallest (xs : List ℚ) : ℚ := xs.foldr min (xs.headD 0)
def largest (xs : List ℚ) : ℚ := xs.foldr max (xs.headD 0)

/-- A clipper that is right for axis-parallel rectangles; the diagonal is overestimated. -/
def boxScan : ScanClipper where
  bounds bs := (smallest (bs.flatten.map Pt.x), smallest (bs.flatten.map Pt.y), largest (bs.flatten.map Pt.x), largest (bs.flatten.map Pt.y))
  diagonal b := (b.2.2.1 - b.1) + (b.2.2.2 - b.2.1)
  clip bs ts := .ok ((ts.filter (fun t => decide (smallest (bs.flatten.map Pt.y) < t.1.y ∧ t.1.y < largest (bs.flatten.map Pt.y)))).map
    (fun t => (⟨smallest (bs.flatten.map Pt.x), t.1.y⟩, ⟨largest (bs.flatten.map Pt.x), t.1.y⟩)))

/-- A plane at -3. -/
def boxSurface : SurfaceEngine where
  scan := boxScan
  norm v := |v.x| + |v.y|
  strict := true
  bottom := -3
  drop ps := ps.map (fun _ => -3)

/-- A rectangle whose wire begins with the given side: 0 is the lower, 1 the right, 2 the upper and 3 the left one. -/
def rectangle (left low right high : ℚ) (first : ℕ) : BoundaryFace where
  flat := true
  outer := [sideEdge ⟨left, low, 0⟩ ⟨right, low, 0⟩, sideEdge ⟨right, low, 0⟩ ⟨right, high, 0⟩,
    sideEdge ⟨right, high, 0⟩ ⟨left, high, 0⟩, sideEdge ⟨left, high, 0⟩ ⟨left, low, 0⟩].rotate first
  inners := []

theorem scansTo_of {eng : ScanClipper} {poly : List Pt} {step : ℚ} {lines : List (Pt × Pt)}
    (h : (match scanTemplates eng [poly] step with
      | .ok ts => (match eng.clip [poly] ts with | .ok ls => decide (ls = lines) | .error _ => false)
      | .error _ => false) = true) : ScansTo eng poly step lines := by
  split at h
  · rename_i ts h1
    split at h
    · rename_i ls h2
      rw [of_decide_eq_true h] at h2
      exact ⟨ts, h1, h2⟩
    · cases h
  · cases h

theorem templates_of {eng : ScanClipper} {poly : List Pt} {step : ℚ}
    (h : (match scanTemplates eng [poly] step with
      | .ok ts => decide (∀ t ∈ ts, ∀ p ∈ poly, ∀ q ∈ poly, ¬ (p.y ≤ t.1.y ∧ t.1.y ≤ q.y))
      | .error _ => false) = true) :
    ∃ ts, scanTemplates eng [poly] step = .ok ts ∧ ∀ t ∈ ts, ∀ p ∈ poly, ∀ q ∈ poly, ¬ (p.y ≤ t.1.y ∧ t.1.y ≤ q.y) := by
  split at h
  · rename_i ts h1
    exact ⟨ts, h1, of_decide_eq_true h⟩
  · cases h

/-- The hypotheses of `C118_made_partial` hold for a rectangle whose wire begins with the lower side. -/
theorem rectangle_can : AnswersAll boxSurface ∧ KernelWorks idleKernel ∧ (∀ b ∈ [rectangle 0 0 10 8 0], b.flat = true) ∧
    (∀ w, SurfacedOutline idleKernel 0 [rectangle 0 0 10 8 0] w → Flattenable w ∧
      ∀ poly, wirePolygon w true = .ok poly → CanSurface boxSurface {} poly ∧
        ∀ lines, ScansTo boxSurface.scan poly ((3175 / 1000) * (8 / 10)) lines → OrdinaryScan poly lines) := by
  have hlines : ScansTo boxScan [⟨10, 0⟩, ⟨10, 8⟩, ⟨0, 8⟩, ⟨0, 0⟩] ((3175 / 1000) * (8 / 10))
      [(⟨0, 2/25⟩, ⟨10, 2/25⟩), (⟨0, 131/50⟩, ⟨10, 131/50⟩), (⟨0, 129/25⟩, ⟨10, 129/25⟩), (⟨0, 77/10⟩, ⟨10, 77/10⟩)] :=
    scansTo_of (by decide +kernel)
  refine ⟨fun ps => by simp [boxSurface], ⟨fun w d => ⟨_, rfl⟩, fun _ _ => rfl⟩, by simp [rectangle], ?_⟩
  rintro w ⟨b, hb, ws, h, hw⟩
  cases h
  rw [List.mem_singleton] at hb hw
  subst hb hw
  refine ⟨?_, ?_⟩
  · intro e he
    simp only [rectangle, List.rotate_zero, List.mem_cons, List.not_mem_nil, or_false] at he
    rcases he with rfl | rfl | rfl | rfl <;> exact Or.inl rfl
  · intro poly hp
    have hp' : wirePolygon (rectangle 0 0 10 8 0).outer true = .ok [⟨10, 0⟩, ⟨10, 8⟩, ⟨0, 8⟩, ⟨0, 0⟩] := by decide +kernel
    rw [hp'] at hp
    cases hp
    refine ⟨⟨_, hlines, by simp, ?_, by norm_num, fun s h => by cases h⟩, ?_⟩
    · intro q hq
      simp only [lineEnds, List.flatMap_cons, List.flatMap_nil, List.cons_append, List.nil_append, List.append_nil, List.mem_cons,
        List.not_mem_nil, or_false] at hq
      have right : ∀ y : ℚ, 0 ≤ y → y ≤ 8 → NearOutline [⟨10, 0⟩, ⟨10, 8⟩, ⟨0, 8⟩, ⟨0, 0⟩] ⟨10, y⟩ := by
        intro y h0 h8
        refine ⟨(⟨10, 0⟩, ⟨10, 8⟩), by simp [segments], ⟨10, y⟩, ⟨y / 8, by linarith, by linarith, ?_⟩, by norm_num [sqDist]⟩
        simp only [Pt.lerp, Pt.mk.injEq]; constructor <;> ring
      have left : ∀ y : ℚ, 0 ≤ y → y ≤ 8 → NearOutline [⟨10, 0⟩, ⟨10, 8⟩, ⟨0, 8⟩, ⟨0, 0⟩] ⟨0, y⟩ := by
        intro y h0 h8
        refine ⟨(⟨0, 8⟩, ⟨0, 0⟩), by simp [segments], ⟨0, y⟩, ⟨1 - y / 8, by linarith, by linarith, ?_⟩, by norm_num [sqDist]⟩
        simp only [Pt.lerp, Pt.mk.injEq]; constructor <;> ring
      rcases hq with rfl | rfl | rfl | rfl | rfl | rfl | rfl | rfl
      · exact left _ (by norm_num) (by norm_num)
      · exact right _ (by norm_num) (by norm_num)
      · exact left _ (by norm_num) (by norm_num)
      · exact right _ (by norm_num) (by norm_num)
      · exact left _ (by norm_num) (by norm_num)
      · exact right _ (by norm_num) (by norm_num)
      · exact left _ (by norm_num) (by norm_num)
      · exact right _ (by norm_num) (by norm_num)
    · intro lines hl
      cases scansTo_unique hl hlines
      exact ⟨by decide +kernel, by decide +kernel, by decide +kernel⟩

theorem surfacing_refused {r : Except Err (List Motion)} {x : Err}
    (h : (match r with | .ok _ => false | .error e => decide (e = x)) = true) : r = .error x := by
  cases r with
  | ok cs => cases h
  | error e => rw [of_decide_eq_true h]

theorem surfacing_made {r : Except Err (List Motion)} (h : (match r with | .ok _ => true | .error _ => false) = true) :
    ∃ cs, r = .ok cs := by
  cases r with
  | ok cs => exact ⟨cs, rfl⟩
  | error e => cases h

/-- C118 fails: a face so narrow that no scanline hits it makes the whole call fail with `IndexError`, also if there are other
faces that can be surfaced without it.  Here the strip is 0.6 wide and lies between two scanlines, which are 2.54 apart. -/
theorem C118_violated_narrow : ∃ (eng : SurfaceEngine) (k : FaceKernel) (wide strip : BoundaryFace) (poly : List Pt),
    AnswersAll eng ∧ KernelWorks k ∧ wirePolygon strip.outer true = .ok poly ∧
      (∃ ts, scanTemplates eng.scan [poly] ((3175 / 1000) * (8 / 10)) = .ok ts ∧ ∀ t ∈ ts, ∀ p ∈ poly, ∀ q ∈ poly,
        ¬ (p.y ≤ t.1.y ∧ t.1.y ≤ q.y)) ∧
      (∃ cs, surface3d eng k {} (0, 0) (some (0, 0)) [wide] demoInit = .ok cs) ∧
      surface3d eng k {} (0, 0) (some (0, 0)) [wide, strip] demoInit = .error .indexError :=
  ⟨boxSurface, idleKernel, rectangle 0 0 10 8 0, rectangle 20 (1/5) 30 (4/5) 0, [⟨30, 1/5⟩, ⟨30, 4/5⟩, ⟨20, 4/5⟩, ⟨20, 1/5⟩],
    fun ps => by simp [boxSurface], ⟨fun w d => ⟨_, rfl⟩, fun _ _ => rfl⟩, by decide +kernel, templates_of (by decide +kernel),
    surfacing_made (by decide +kernel), surfacing_refused (by decide +kernel)⟩

/-- C118 fails: whether a face can be surfaced depends on the edge its outline begins with.  The same rectangle is surfaced if the
wire begins with its lower or upper side, and refused with an `AssertionError` if it begins with its left or right one. -/
theorem C118_violated_first_edge : ∃ (eng : SurfaceEngine) (k : FaceKernel), AnswersAll eng ∧ KernelWorks k ∧
    (∀ n, n = 0 ∨ n = 2 → ∃ cs, surface3d eng k {} (0, 0) (some (0, 0)) [rectangle 0 0 10 8 n] demoInit = .ok cs) ∧
    (∀ n, n = 1 ∨ n = 3 → surface3d eng k {} (0, 0) (some (0, 0)) [rectangle 0 0 10 8 n] demoInit = .error .assertionError) := by
  refine ⟨boxSurface, idleKernel, fun ps => by simp [boxSurface], ⟨fun w d => ⟨_, rfl⟩, fun _ _ => rfl⟩, ?_, ?_⟩
  · rintro n (rfl | rfl)
    · exact surfacing_made (by decide +kernel)
    · exact surfacing_made (by decide +kernel)
  · rintro n (rfl | rfl)
    · exact surfacing_refused (by decide +kernel)
    · exact surfacing_refused (by decide +kernel)

end CQ
