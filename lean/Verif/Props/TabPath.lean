import Verif.Props.Tabs
import Verif.Props.ProfilePath

/-! # C51: the passes of a profile with tabs -/

namespace CQ

/-- The new edge of one part between two transitions. -/
def tabPiece (z : ℚ) (e : Edge) (t1 t2 : ℚ × Transition) : Edge :=
  if t1.2 = .tab then projectEdge z e (edgeOrientedParam e t1.1 t2.1).1 (edgeOrientedParam e t1.1 t2.1).2.1
  else sliceEdge e (edgeOrientedParam e t1.1 t2.1).1 (edgeOrientedParam e t1.1 t2.1).2.1

/-- The connector in front of a new edge. -/
def tabConnector (prev : Option Edge) (piece : Edge) : Except Err (List Edge) :=
  match prev with
  | none => .ok []
  | some p => do
      let c ← makeLine (edgeEndPoint p) (edgeStartPoint piece)
      .ok [c]

theorem tabSegments_cons (z : ℚ) (e : Edge) (prev : Option Edge) (t1 t2 : ℚ × Transition) (ts : List (ℚ × Transition)) :
    tabSegments z e prev (t1 :: t2 :: ts) = (tabConnector prev (tabPiece z e t1 t2) >>= fun connector =>
      tabSegments z e (some (tabPiece z e t1 t2)) (t2 :: ts) >>= fun rest =>
        .ok (connector ++ tabPiece z e t1 t2 :: rest)) := by
  cases prev with
  | none => rfl
  | some p =>
    unfold tabConnector
    simp only
    cases h : makeLine (edgeEndPoint p) (edgeStartPoint (tabPiece z e t1 t2)) with
    | error x =>
      have : tabSegments z e (some p) (t1 :: t2 :: ts) = (makeLine (edgeEndPoint p) (edgeStartPoint (tabPiece z e t1 t2)) >>=
        fun c => tabSegments z e (some (tabPiece z e t1 t2)) (t2 :: ts) >>= fun rest => .ok ([c] ++ tabPiece z e t1 t2 :: rest)) := rfl
      rw [this, h]; rfl
    | ok c =>
      have : tabSegments z e (some p) (t1 :: t2 :: ts) = (makeLine (edgeEndPoint p) (edgeStartPoint (tabPiece z e t1 t2)) >>=
        fun c => tabSegments z e (some (tabPiece z e t1 t2)) (t2 :: ts) >>= fun rest => .ok ([c] ++ tabPiece z e t1 t2 :: rest)) := rfl
      rw [this, h]; rfl

theorem piece_spec {ze z : ℚ} {e : Edge} (h : FlatEdge ze e) (t1 t2 : ℚ × Transition) :
    IsPiece z e t1.1 t2.1 (t1.2 = .tab) (tabPiece z e t1 t2) := by
  by_cases ht : t1.2 = .tab
  · cases hr : e.reversed with
    | true =>
      refine ⟨fun u => ?_, fun _ u => ?_, fun hn => absurd ht hn, fun _ q => ?_, fun hn => absurd ht hn, ⟨?_, ?_⟩, ?_, ⟨?_, ?_, ?_, ?_⟩, ?_⟩ <;>
        simp [tabPiece, ht, projectEdge, sliceEdge, edgeOrientedParam, hr, Edge.travel, Edge.fromParam, Edge.toParam, Vec.atZ,
          h.consistent]
      · rw [show 1 - t2.1 + (1 - u) * (t2.1 - t1.1) = 1 - (t1.1 + u * (t2.1 - t1.1)) by ring]; simp
    | false =>
      refine ⟨fun u => ?_, fun _ u => ?_, fun hn => absurd ht hn, fun _ q => ?_, fun hn => absurd ht hn, ⟨?_, ?_⟩, ?_, ⟨?_, ?_, ?_, ?_⟩, ?_⟩ <;>
        simp [tabPiece, ht, projectEdge, sliceEdge, edgeOrientedParam, hr, Edge.travel, Edge.fromParam, Edge.toParam, Vec.atZ,
          h.consistent]
  · cases hr : e.reversed with
    | true =>
      refine ⟨fun u => ?_, fun hn => absurd hn ht, fun _ u => ?_, fun hn => absurd hn ht, fun _ q => ?_, ⟨?_, ?_⟩, ?_, ⟨?_, ?_, ?_, ?_⟩, ?_⟩ <;>
        simp [tabPiece, ht, sliceEdge, edgeOrientedParam, hr, Edge.travel, Edge.fromParam, Edge.toParam, h.consistent]
      · rw [show 1 - t2.1 + (1 - u) * (t2.1 - t1.1) = 1 - (t1.1 + u * (t2.1 - t1.1)) by ring]; simp
      · rw [show 1 - t2.1 + (1 - u) * (t2.1 - t1.1) = 1 - (t1.1 + u * (t2.1 - t1.1)) by ring]
    | false =>
      refine ⟨fun u => ?_, fun hn => absurd hn ht, fun _ u => ?_, fun hn => absurd hn ht, fun _ q => ?_, ⟨?_, ?_⟩, ?_, ⟨?_, ?_, ?_, ?_⟩, ?_⟩ <;>
        simp [tabPiece, ht, sliceEdge, edgeOrientedParam, hr, Edge.travel, Edge.fromParam, Edge.toParam, h.consistent]

/-- All points of a piece are at the height of the tab, or of the edge. -/
theorem piece_at {ze z : ℚ} {e : Edge} (h : FlatEdge ze e) {a b : ℚ} {tab : Prop} [Decidable tab] {p : Edge}
    (hp : IsPiece z e a b tab p) : EdgeAt (· = if tab then z else ze) p := by
  have hlen : ∀ d, (p.posLen d).z = if tab then z else ze := by
    intro d
    have : p.posLen d = p.travel (if p.reversed then 1 - d else d) := by
      unfold Edge.travel
      split <;> simp
    rw [this]
    by_cases ht : tab
    · rw [if_pos ht]; exact hp.tabHeight ht _
    · rw [if_neg ht, hp.ownHeight ht _]; exact h.flat.len _
  refine ⟨by rw [← hp.ok.len0]; exact hlen 0, by rw [← hp.ok.len1]; exact hlen 1, fun q => ?_, hlen⟩
  split
  · rw [hp.tabParam ‹_› q]
  · rw [hp.ownParam ‹_› q]; exact h.flat.param q

theorem connector_spec {a b : Vec} (hx : a.x = b.x) (hy : a.y = b.y) (hz : a.z ≠ b.z) :
    ∃ c, makeLine a b = .ok c ∧ IsConnector a b c ∧ c.normal = ⟨0, 0, 1⟩ := by
  have hab : a ≠ b := by rintro rfl; exact hz rfl
  have hn : |b.z - a.z| ≠ 0 := by rw [abs_ne_zero]; exact sub_ne_zero.mpr (Ne.symm hz)
  have hpt : ∀ u : ℚ, a.add (Vec.smul u (b.sub a)) = ⟨a.x, a.y, a.z + u * (b.z - a.z)⟩ := by
    intro u
    simp [Vec.add, Vec.smul, Vec.sub, hx, hy]
  refine ⟨_, by unfold makeLine; rw [if_neg hab], ⟨rfl, ⟨hx, hy⟩, fun u => ?_, ⟨?_, ?_, ?_, ?_⟩⟩, rfl⟩
  · simp only [Edge.travel]; exact hpt _
  · show a.add _ = a
    rw [hpt]; simp
  · show a.add _ = b
    show a.add (Vec.smul (1 * |b.z - a.z| / |b.z - a.z|) (b.sub a)) = b
    rw [hpt, one_mul, div_self hn]
    cases b; simp_all
  · show a.add _ = a
    rw [hpt]; simp
  · show a.add _ = b
    rw [hpt]; cases b; simp_all

/-- The first new edge starts, and the last one ends, where the transitions say. -/
theorem tabSegments_spec {ze z : ℚ} (hz : ze ≠ z) {e : Edge} (h : FlatEdge ze e) (ts : List (ℚ × Transition)) :
    ∀ t1 t2, Alternates (t1 :: t2 :: ts) →
      ∃ rest, (∀ prev, tabSegments z e prev (t1 :: t2 :: ts) = (tabConnector prev (tabPiece z e t1 t2) >>= fun connector =>
          .ok (connector ++ tabPiece z e t1 t2 :: rest))) ∧
        TabPath z e (t1 :: t2 :: ts) (tabPiece z e t1 t2 :: rest) := by
  induction ts with
  | nil =>
    intro t1 t2 _
    exact ⟨[], fun prev => by rw [tabSegments_cons]; rfl, _, rfl, piece_spec h t1 t2⟩
  | cons t3 ts ih =>
    intro t1 t2 ha
    obtain ⟨h12, ha⟩ := ha
    obtain ⟨rest, h1, h2⟩ := ih t2 t3 ha
    have p1 := piece_spec (z := z) h t1 t2
    have p2 := piece_spec (z := z) h t2 t3
    have q1 := piece_at h p1
    have q2 := piece_at h p2
    have hs : edgeEndPoint (tabPiece z e t1 t2) = (tabPiece z e t1 t2).travel 1 := edgeEndPoint_eq p1.ok
    have hs' : edgeStartPoint (tabPiece z e t2 t3) = (tabPiece z e t2 t3).travel 0 := edgeStartPoint_eq p2.ok
    have e1 := p1.path 1
    have e2 := p2.path 0
    have hm1 : t1.1 + 1 * (t2.1 - t1.1) = t2.1 := by ring
    have hm2 : t2.1 + 0 * (t3.1 - t2.1) = t2.1 := by ring
    rw [hm1] at e1
    rw [hm2] at e2
    have hxy := e1.trans e2.symm
    simp only [Prod.mk.injEq] at hxy
    have hzz : ((tabPiece z e t1 t2).travel 1).z ≠ ((tabPiece z e t2 t3).travel 0).z := by
      have a1 := q1.len (if (tabPiece z e t1 t2).reversed then 1 - 1 else 1)
      have a2 := q2.len (if (tabPiece z e t2 t3).reversed then 1 - 0 else 0)
      simp only [Edge.travel]
      rw [a1, a2]
      by_cases ht : t1.2 = .tab
      · rw [if_pos ht, if_neg (h12.mp ht)]; exact Ne.symm hz
      · rw [if_neg ht, if_pos (by by_contra hn; exact ht (h12.mpr hn))]; exact hz
    obtain ⟨c, hc, hc', -⟩ := connector_spec hxy.1 hxy.2 hzz
    refine ⟨c :: tabPiece z e t2 t3 :: rest, fun prev => ?_, _, c, _, rest, rfl, p1, hc', h2⟩
    rw [tabSegments_cons, h1 (some (tabPiece z e t1 t2))]
    simp only [tabConnector, hs, hs', hc, ok_bind]
    rfl

theorem edgeAt_travel {P : ℚ → Prop} {e : Edge} (h : EdgeAt P e) (t : ℚ) : P (e.travel t).z := h.len _

/-- Where the pieces begin and end. -/
theorem piece_ends {ze z : ℚ} {e : Edge} (h : FlatEdge ze e) {a b : ℚ} {tab : Prop} [Decidable tab] {p : Edge}
    (hp : IsPiece z e a b tab p) :
    p.travel 0 = (e.travel a).atZ (if tab then z else ze) ∧ p.travel 1 = (e.travel b).atZ (if tab then z else ze) := by
  have h0 := hp.path 0
  have h1 := hp.path 1
  rw [show a + 0 * (b - a) = a by ring] at h0
  rw [show a + 1 * (b - a) = b by ring] at h1
  simp only [Prod.mk.injEq] at h0 h1
  have hz : ∀ u, (p.travel u).z = if tab then z else ze := by
    intro u
    split
    · exact hp.tabHeight ‹_› u
    · rw [hp.ownHeight ‹_› u]; exact edgeAt_travel h.flat _
  constructor
  · simp only [Vec.atZ]; rw [← h0.1, ← h0.2, ← hz 0]
  · simp only [Vec.atZ]; rw [← h1.1, ← h1.2, ← hz 1]

instance : DecidablePred StartsTab := fun ts => by
  cases ts <;> unfold StartsTab <;> infer_instance

instance : DecidablePred EndsTab := fun ts => by
  induction ts with
  | nil => unfold EndsTab; infer_instance
  | cons a ts ih =>
    cases ts with
    | nil => unfold EndsTab; infer_instance
    | cons b ts =>
      cases ts with
      | nil => unfold EndsTab; infer_instance
      | cons c ts => exact ih

/-- The edges of a tabbed edge follow each other, from one end of the edge to the other. -/
theorem tabPath_ends {ze z : ℚ} {e : Edge} (h : FlatEdge ze e) (ts : List (ℚ × Transition)) :
    ∀ t1 t2 es, TabPath z e (t1 :: t2 :: ts) es → ∃ f l t, es.head? = some f ∧ es.getLast? = some l ∧
      (t1 :: t2 :: ts).getLast? = some t ∧ Chained es ∧
      f.travel 0 = (e.travel t1.1).atZ (if StartsTab (t1 :: t2 :: ts) then z else ze) ∧
      l.travel 1 = (e.travel t.1).atZ (if EndsTab (t1 :: t2 :: ts) then z else ze) := by
  induction ts with
  | nil =>
    rintro t1 t2 es ⟨p, rfl, hp⟩
    obtain ⟨h0, h1⟩ := piece_ends h hp
    exact ⟨p, p, t2, rfl, rfl, rfl, trivial, h0, h1⟩
  | cons t3 ts ih =>
    rintro t1 t2 es ⟨p, c, p', rest, rfl, hp, hc, htp⟩
    obtain ⟨f, l, t, h1, h2, h3, h4, h5, h6⟩ := ih t2 t3 _ htp
    cases h1
    obtain ⟨h0, -⟩ := piece_ends h hp
    have hc0 : p.travel 1 = c.travel 0 := by rw [hc.path 0]; simp
    have hc1 : c.travel 1 = p'.travel 0 := by rw [hc.path 1, hc.vertical.1, hc.vertical.2]; simp
    refine ⟨p, l, t, rfl, ?_, ?_, ⟨hc0, hc1, h4⟩, h0, h6⟩
    · rw [List.getLast?_cons_cons, List.getLast?_cons_cons]; exact h2
    · rw [List.getLast?_cons_cons]; exact h3

theorem startsTab_of_noTab {ts : List (ℚ × Transition)} (h : ∀ t ∈ ts, t.2 ≠ .tab) : ¬ StartsTab ts ∧ ¬ EndsTab ts := by
  constructor
  · cases ts with
    | nil => simp [StartsTab]
    | cons a ts => exact h a (by simp)
  · induction ts with
    | nil => simp [EndsTab]
    | cons a ts ih =>
      cases ts with
      | nil => simp [EndsTab]
      | cons b ts =>
        cases ts with
        | nil => exact h a (by simp)
        | cons c ts => exact ih (fun t ht => h t (by simp [ht]))

theorem tabbedEdge_ends {ze z : ℚ} {e : Edge} (h : FlatEdge ze e) {ts : List (ℚ × Transition)} (hf : FullEdge ts)
    {es : List Edge} (ht : TabbedEdge z e ts es) : ∃ f l, es.head? = some f ∧ es.getLast? = some l ∧ Chained es ∧
      f.travel 0 = (e.travel 0).atZ (if StartsTab ts then z else ze) ∧
      l.travel 1 = (e.travel 1).atZ (if EndsTab ts then z else ze) := by
  rcases ht with ⟨rfl, hn⟩ | ht
  · obtain ⟨h1, h2⟩ := startsTab_of_noTab hn
    refine ⟨e, e, rfl, rfl, trivial, ?_, ?_⟩
    · rw [if_neg h1, ← edgeAt_travel h.flat 0]; rfl
    · rw [if_neg h2, ← edgeAt_travel h.flat 1]; rfl
  · match ts, hf, ht with
    | [], ⟨h0, _⟩, _ => cases h0
    | [a], ⟨h0, h1⟩, _ =>
      simp only [List.head?_cons, List.getLast?_singleton, Option.map_some, Option.some.injEq] at h0 h1
      rw [h0] at h1; norm_num at h1
    | t1 :: t2 :: ts, ⟨h0, h1⟩, ht =>
      obtain ⟨f, l, t, g1, g2, g3, g4, g5, g6⟩ := tabPath_ends h ts t1 t2 es ht
      rw [g3] at h1
      simp only [List.head?_cons, Option.map_some, Option.some.injEq] at h0 h1
      rw [h0] at g5
      rw [h1] at g6
      exact ⟨f, l, g1, g2, g4, g5, g6⟩

theorem tabEdge_spec {ze z : ℚ} (hz : ze ≠ z) {e : Edge} (h : FlatEdge ze e) {ts : List (ℚ × Transition)}
    (hp : ProperTransitions ts) : ∃ es, tabEdge z e ts = .ok es ∧ TabbedEdge z e ts es := by
  unfold tabEdge
  by_cases hall : ts.all (fun t => decide (t.2 = .normal)) = true
  · rw [if_pos hall]
    refine ⟨_, rfl, Or.inl ⟨rfl, ?_⟩⟩
    intro t ht
    have := List.all_eq_true.mp hall t ht
    simp only [decide_eq_true_eq] at this
    rw [this]; simp
  · rw [if_neg hall]
    match ts, hp with
    | [], hp => cases hp.full.1
    | [a], hp =>
      obtain ⟨h0, h1⟩ := hp.full
      simp only [List.head?_cons, List.getLast?_singleton, Option.map_some, Option.some.injEq] at h0 h1
      rw [h0] at h1; norm_num at h1
    | t1 :: t2 :: ts, hp =>
      obtain ⟨rest, h1, h2⟩ := tabSegments_spec hz h ts t1 t2 hp.alternates
      exact ⟨_, h1 none, Or.inr h2⟩

theorem sameCurves_travel {es es' : List Edge} (h : SameCurves es es') : (Chained es ↔ Chained es') ∧
    (Closes es ↔ Closes es') := by
  constructor
  · induction h with
    | nil => exact Iff.rfl
    | @cons a b as bs hab habs ih =>
      obtain ⟨i, rfl⟩ := hab
      cases habs with
      | nil => exact Iff.rfl
      | @cons a' b' as bs hab' habs =>
        obtain ⟨i', rfl⟩ := hab'
        exact and_congr Iff.rfl ih
  · have hhead : es'.head?.map (fun e => e.travel 0) = es.head?.map (fun e => e.travel 0) := by
      cases h with
      | nil => rfl
      | cons hab _ => obtain ⟨i, rfl⟩ := hab; rfl
    have hlast : es'.getLast?.map (fun e => e.travel 1) = es.getLast?.map (fun e => e.travel 1) := by
      induction h with
      | nil => rfl
      | @cons a b as bs hab habs ih =>
        obtain ⟨i, rfl⟩ := hab
        cases habs with
        | nil => rfl
        | cons hab' habs =>
          rw [List.getLast?_cons_cons, List.getLast?_cons_cons]
          apply ih
          cases habs with
          | nil => obtain ⟨i', rfl⟩ := hab'; rfl
          | cons _ _ => obtain ⟨i', rfl⟩ := hab'; rfl
    have key : ∀ (es : List Edge), Closes es ↔ ∀ u v, es.head?.map (fun e => e.travel 0) = some u →
        es.getLast?.map (fun e => e.travel 1) = some v → v = u := by
      intro es
      constructor
      · intro hc u v hu hv
        obtain ⟨a, ha, rfl⟩ := Option.map_eq_some_iff.mp hu
        obtain ⟨b, hb, rfl⟩ := Option.map_eq_some_iff.mp hv
        exact hc a b ha hb
      · intro hc a b ha hb
        exact hc _ _ (by rw [ha]; rfl) (by rw [hb]; rfl)
    rw [key, key, hhead, hlast]

theorem tabEdges_spec {ze z : ℚ} (hz : ze ≠ z) (es : List Edge) : ∀ (e : Edge) (ts : List (ℚ × Transition))
    (tss : List (List (ℚ × Transition))), tss.length = es.length → (∀ x ∈ e :: es, FlatEdge ze x) →
    (∀ x ∈ ts :: tss, ProperTransitions x) → Chained (e :: es) →
    List.IsChain (fun a b => EndsTab a ↔ StartsTab b) (ts :: tss) →
    ∃ blocks f l le lt, tabEdges z (e :: es) (ts :: tss) = .ok (List.flatten blocks) ∧
      List.Forall₂ (fun p b => TabbedEdge z p.1 p.2 b) ((e :: es).zip (ts :: tss)) blocks ∧ Chained blocks.flatten ∧
      blocks.flatten.head? = some f ∧ f.travel 0 = (e.travel 0).atZ (if StartsTab ts then z else ze) ∧
      blocks.flatten.getLast? = some l ∧ (e :: es).getLast? = some le ∧ (ts :: tss).getLast? = some lt ∧
      l.travel 1 = (le.travel 1).atZ (if EndsTab lt then z else ze) := by
  induction es with
  | nil =>
    intro e ts tss hlen hflat hproper _ _
    obtain rfl : tss = [] := List.eq_nil_of_length_eq_zero hlen
    obtain ⟨b, h1, h2⟩ := tabEdge_spec hz (hflat e (by simp)) (hproper ts (by simp))
    obtain ⟨f, l, g1, g2, g3, g4, g5⟩ := tabbedEdge_ends (hflat e (by simp)) (hproper ts (by simp)).full h2
    refine ⟨[b], f, l, e, ts, ?_, .cons h2 .nil, by simpa using g3, by simpa using g1, g4, by simpa using g2, rfl, rfl, g5⟩
    simp only [tabEdges, h1, ok_bind, List.append_nil, List.flatten_cons, List.flatten_nil]
  | cons e' es ih =>
    intro e ts tss hlen hflat hproper hch hm
    obtain ⟨ts', tss, rfl⟩ : ∃ a b, tss = a :: b := List.exists_cons_of_ne_nil (by rintro rfl; cases hlen)
    obtain ⟨blocks, f', l, le, lt, i1, i2, i3, i4, i5, i6, i7, i8, i9⟩ := ih e' ts' tss (by simpa using hlen)
      (fun x hx => hflat x (List.mem_cons_of_mem _ hx)) (fun x hx => hproper x (List.mem_cons_of_mem _ hx)) hch.2
      (List.isChain_cons_cons.mp hm).2
    obtain ⟨b, h1, h2⟩ := tabEdge_spec hz (hflat e (by simp)) (hproper ts (by simp))
    obtain ⟨f, l0, g1, g2, g3, g4, g5⟩ := tabbedEdge_ends (hflat e (by simp)) (hproper ts (by simp)).full h2
    refine ⟨b :: blocks, f, l, le, lt, ?_, .cons h2 i2, ?_, ?_, g4, ?_, by rw [List.getLast?_cons_cons]; exact i7,
      by rw [List.getLast?_cons_cons]; exact i8, i9⟩
    · rw [tabEdges, h1, ok_bind, i1]; rfl
    · rw [List.flatten_cons]
      refine chained_append.mpr ⟨g3, i3, ?_⟩
      intro x y hx hy
      rw [g2] at hx
      rw [i4] at hy
      cases hx
      cases hy
      rw [g5, i5, hch.1]
      congr 1
      by_cases hs : StartsTab ts'
      · rw [if_pos hs, if_pos ((List.isChain_cons_cons.mp hm).1.mpr hs)]
      · rw [if_neg hs, if_neg (fun h => hs ((List.isChain_cons_cons.mp hm).1.mp h))]
    · rw [List.flatten_cons, List.head?_append, g1]; rfl
    · rw [List.flatten_cons, List.getLast?_append, i6]; rfl

/-- C51: a pass that does not reach below the top of the tabs is not changed. -/
theorem C51_above {cad : Cad} {tabZ : ℚ} {tabs : Tabs} {w : List Edge} (h : tabZ ≤ cad.zmin w) :
    applyTabs cad tabZ tabs w = .ok w := by
  unfold applyTabs; rw [if_pos h]

/-- The edges made from fitting transitions are assembled to a tabbed wire. -/
theorem tabEdges_assembled {cad : Cad} (hA : Assembles cad) {ze tabZ : ℚ} (hz : ze < tabZ) {w : List Edge}
    (hne : w ≠ []) (hflat : ∀ e ∈ w, FlatEdge ze e) (hch : Chained w) {tss : List (List (ℚ × Transition))}
    (hlen : tss.length = w.length) (hp : ∀ ts ∈ tss, ProperTransitions ts) (hm : TabsMeet tss) :
    ∃ new w', tabEdges tabZ w tss = .ok new ∧ cad.assemble new = .ok w' ∧ TabbedWire tabZ w tss w' ∧ Chained w' ∧
      (Closes w → Closes w') ∧ w'.Pairwise (fun a b => a.id ≠ b.id) := by
  obtain ⟨e, es, rfl⟩ := List.exists_cons_of_ne_nil hne
  obtain ⟨ts, tss, rfl⟩ : ∃ a b, tss = a :: b := List.exists_cons_of_ne_nil (by rintro rfl; cases hlen)
  obtain ⟨blocks, f, l, le, lt, h1, h2, h3, h4, h5, h6, h7, h8, h9⟩ := tabEdges_spec hz.ne es e ts tss (by simpa using hlen)
    hflat hp hch hm.1
  obtain ⟨w', h10, h11, h12⟩ := hA blocks.flatten (by intro h; rw [h] at h4; cases h4) h3
  refine ⟨blocks.flatten, w', h1, h10, ⟨hlen, blocks, h2, h11⟩, (sameCurves_travel h11).1.mp h3, ?_, h12⟩
  · intro hc
    rw [← (sameCurves_travel h11).2]
    intro a b ha hb
    rw [h4] at ha
    rw [h6] at hb
    cases ha
    cases hb
    rw [h9, h5, hc e le rfl h7]
    congr 1
    by_cases hs : StartsTab ts
    · rw [if_pos hs, if_pos ((hm.2 ts lt rfl h8).mpr hs)]
    · rw [if_neg hs, if_neg (fun h => hs ((hm.2 ts lt rfl h8).mp h))]

/-- C51, any tabs (as far as it holds: the tabs of consecutive edges fit together, and the kernel assembles connected
edges).  A flat pass below the top of the tabs becomes a connected wire that follows the pass at its height outside the
tabs and at the top of the tabs inside them, with vertical moves in between. -/
theorem C51_tabs_partial {cad : Cad} (hA : Assembles cad) {ze tabZ : ℚ} (hz : ze < tabZ) {tabs : Tabs} {w : List Edge}
    (hne : w ≠ []) (hbox : cad.zmin w = ze) (hflat : ∀ e ∈ w, FlatEdge ze e) (hch : Chained w)
    {tss : List (List (ℚ × Transition))} (htr : tabs.transitions (cad.wireLength w) w = .ok tss)
    (hlen : tss.length = w.length) (hp : ∀ ts ∈ tss, ProperTransitions ts) (hm : TabsMeet tss) :
    ∃ w', applyTabs cad tabZ tabs w = .ok w' ∧ TabbedWire tabZ w tss w' ∧ Chained w' ∧ (Closes w → Closes w') ∧
      w'.Pairwise (fun a b => a.id ≠ b.id) := by
  obtain ⟨new, w', h1, h2, h3⟩ := tabEdges_assembled hA hz hne hflat hch hlen hp hm
  refine ⟨w', ?_, h3⟩
  unfold applyTabs
  rw [if_neg (by rw [hbox]; exact not_le.mpr hz), htr, ok_bind, h1, ok_bind, h2]

/-! ### Tabs on edges -/

theorem edgeTransitions_alternates (ds : List (ℚ × ℚ)) : Alternates (edgeTransitions ds) ∧
    ¬ StartsTab (edgeTransitions ds) ∧ ¬ EndsTab (edgeTransitions ds) := by
  refine ⟨?_, by simp [edgeTransitions, StartsTab], ?_⟩
  · unfold edgeTransitions
    have key : ∀ p : ℚ, Alternates ((p, .normal) :: (ds.flatMap (fun d => [(d.1, Transition.tab), (d.2, .normal)]) ++
        [(1, .normal)])) := by
      induction ds with
      | nil => intro p; trivial
      | cons d ds ih =>
        intro p
        simp only [List.flatMap_cons, List.cons_append, List.nil_append]
        have := ih d.2
        revert this
        cases ds.flatMap (fun d => [(d.1, Transition.tab), (d.2, .normal)]) ++ [((1 : ℚ), Transition.normal)] with
        | nil => intro _; simp [Alternates]
        | cons x xs => intro h; exact ⟨by simp, by simp, h⟩
    exact key 0
  · unfold edgeTransitions
    have key : ∀ p : ℚ, ¬ EndsTab ((p, .normal) :: (ds.flatMap (fun d => [(d.1, Transition.tab), (d.2, .normal)]) ++
        [(1, .normal)])) := by
      induction ds with
      | nil => intro p; simp [EndsTab]
      | cons d ds ih =>
        intro p
        simp only [List.flatMap_cons, List.cons_append, List.nil_append]
        have := ih d.2
        revert this
        cases hx : ds.flatMap (fun d => [(d.1, Transition.tab), (d.2, .normal)]) ++ [((1 : ℚ), Transition.normal)] with
        | nil => simp at hx
        | cons x xs => intro h; exact h
    exact key 0

/-- C51 for tabs along edges (as far as it holds: flat passes, a spacing of more than one and a half widths, and a kernel
that assembles connected edges).  The pass becomes a connected wire that follows the edges at the height of the pass
outside the tabs, and at the top of the tabs inside them. -/
theorem C51_edge_tabs_partial {cad : Cad} (hA : Assembles cad) {ze tabZ : ℚ} (hz : ze < tabZ) {w : List Edge}
    (hne : w ≠ []) (hbox : cad.zmin w = ze) (hflat : ∀ e ∈ w, FlatEdge ze e) (hlen : ∀ e ∈ w, 0 < e.length) (hch : Chained w)
    {spacing width height : ℚ} {only : Option Geom} {t : EdgeTabs} (hnew : EdgeTabs.new spacing width height only = .ok t)
    (hw : 0 < width) (hs : 3 * width < 2 * spacing) :
    ∃ tss w', applyTabs cad tabZ (.edge t) w = .ok w' ∧ TabbedWire tabZ w tss w' ∧ Chained w' ∧ (Closes w → Closes w') ∧
      w'.Pairwise (fun a b => a.id ≠ b.id) ∧
      EdgeMarks t w tss ∧ ∀ ts ∈ tss, FullEdge ts := by
  have hedge : ∀ e ∈ w, ∃ ds, t.edgeDs e = .ok ds ∧ ProperTransitions (edgeTransitions ds) := by
    intro e he
    by_cases ho : only = none ∨ only = some e.geom
    · obtain ⟨ds, h1, h2, -, -⟩ := C49_transitions_partial hnew hw (hlen e he) ho
      obtain ⟨ds', h1', h3⟩ := C49_wide_spacing hnew hw hs (hlen e he) ho
      rw [h1] at h1'
      cases h1'
      exact ⟨ds, h1, h3, h2, (edgeTransitions_alternates ds).1⟩
    · push Not at ho
      obtain ⟨g, hg⟩ := Option.ne_none_iff_exists'.mp ho.1
      have hto : t.only = only := by
        unfold EdgeTabs.new at hnew
        split at hnew <;> cases hnew
        rfl
      refine ⟨[], C49_other_kinds (g := g) (by rw [hto, hg]) (by rintro rfl; exact ho.2 hg), ?_, ⟨rfl, rfl⟩, trivial⟩
      simp [edgeTransitions, Increasing]
  obtain ⟨dss, hd⟩ := mapE_total (f := t.edgeDs) (as := w) (fun e he => let ⟨ds, h, _⟩ := hedge e he; ⟨ds, h⟩)
  have hd2 := mapE_ok.mp hd
  have hpr : ∀ ts ∈ dss.map edgeTransitions, ProperTransitions ts := by
    intro ts hts
    obtain ⟨ds, hds, rfl⟩ := List.mem_map.mp hts
    obtain ⟨e, he, h⟩ := mapE_mem hd hds
    obtain ⟨ds', h', hp⟩ := hedge e he
    rw [h] at h'
    cases h'
    exact hp
  have hmeet : TabsMeet (dss.map edgeTransitions) := by
    have hno : ∀ ts ∈ dss.map edgeTransitions, ¬ StartsTab ts ∧ ¬ EndsTab ts := by
      intro ts hts
      obtain ⟨ds, -, rfl⟩ := List.mem_map.mp hts
      exact (edgeTransitions_alternates ds).2
    constructor
    · rw [List.isChain_iff_getElem]
      intro i hi
      exact iff_of_false (hno _ (List.getElem_mem _)).2 (hno _ (List.getElem_mem _)).1
    · intro a b ha hb
      exact iff_of_false (hno b (List.mem_of_getLast? hb)).2 (hno a (List.mem_of_head? ha)).1
  obtain ⟨w', h1, h2, h3, h4, h5⟩ := C51_tabs_partial hA hz hne hbox hflat hch
    (tabs := .edge t) (tss := dss.map edgeTransitions) (by simp only [Tabs.transitions, hd, ok_bind])
    (by rw [List.length_map]; exact hd2.length_eq.symm) hpr hmeet
  refine ⟨_, w', h1, h2, h3, h4, h5, ?_, fun ts hts => (hpr ts hts).full⟩
  unfold EdgeMarks
  rw [List.forall₂_map_right_iff]
  exact hd2.imp (fun e ds h => ⟨ds, h, edgeTransitions_marked ds⟩)

/-! ### Tabs around the wire -/

theorem startsTab_marked {ts : List (ℚ × Transition)} (hi : Increasing ts) (hf : FullEdge ts) :
    StartsTab ts ↔ MarkedTab ts 0 := by
  match ts, hi, hf with
  | [], _, ⟨h0, _⟩ => cases h0
  | [a], _, ⟨h0, h1⟩ =>
    simp only [List.head?_cons, List.getLast?_singleton, Option.map_some, Option.some.injEq] at h0 h1
    rw [h0] at h1; norm_num at h1
  | a :: b :: ts, hi, ⟨h0, _⟩ =>
    simp only [List.head?_cons, Option.map_some, Option.some.injEq] at h0
    have hlt : ∀ x ∈ b :: ts, 0 < x.1 := by
      intro x hx; rw [← h0]; exact (List.pairwise_cons.mp hi).1 x hx
    have hrest : ∀ l : List (ℚ × Transition), (∀ x ∈ l, 0 < x.1) → ¬ MarkedTab l 0 := by
      intro l
      induction l with
      | nil => simp [MarkedTab]
      | cons x l ih =>
        intro h
        cases l with
        | nil => simp [MarkedTab]
        | cons y l =>
          rintro (⟨-, h1, -⟩ | h1)
          · exact absurd (h x (by simp)) (not_lt.mpr h1)
          · exact ih (fun z hz => h z (by simp [hz])) h1
    simp only [StartsTab, MarkedTab, h0, le_refl, hrest _ hlt, or_false, hlt b (by simp), and_true]

theorem endsTab_marked {ts : List (ℚ × Transition)} (hi : Increasing ts) (hlast : ts.getLast?.map Prod.fst = some 1)
    (hlen : 2 ≤ ts.length) : ∃ p, p < 1 ∧ ∀ x, p ≤ x → x < 1 → (EndsTab ts ↔ MarkedTab ts x) := by
  induction ts with
  | nil => cases hlast
  | cons a ts ih =>
    match ts, hlen with
    | [b], _ =>
      simp only [List.getLast?_cons_cons, List.getLast?_singleton, Option.map_some, Option.some.injEq] at hlast
      have hab := (List.pairwise_cons.mp hi).1 b (by simp)
      refine ⟨a.1, by linarith, fun x h1 h2 => ?_⟩
      simp [EndsTab, MarkedTab, h1, hlast, h2]
    | b :: c :: ts, _ =>
      obtain ⟨p, hp, h⟩ := ih (List.pairwise_cons.mp hi).2 (by rw [List.getLast?_cons_cons] at hlast; exact hlast) (by simp)
      have hb1 : b.1 < 1 := by
        have hl : ∃ l ∈ c :: ts, l.1 = 1 := by
          rw [List.getLast?_cons_cons, List.getLast?_cons_cons] at hlast
          obtain ⟨l, hl, h1⟩ := Option.map_eq_some_iff.mp hlast
          exact ⟨l, List.mem_of_getLast? hl, h1⟩
        obtain ⟨l, hl, h1⟩ := hl
        rw [← h1]
        exact (List.pairwise_cons.mp (List.pairwise_cons.mp hi).2).1 l hl
      refine ⟨max p b.1, max_lt hp hb1, fun x h1 h2 => ?_⟩
      have hx := h x ((le_max_left _ _).trans h1) h2
      have hbx := (le_max_right _ _).trans h1
      show EndsTab (b :: c :: ts) ↔ _
      rw [hx]
      conv_rhs => unfold MarkedTab
      constructor
      · exact Or.inr
      · rintro (⟨-, -, h3⟩ | h3)
        · exact absurd hbx (not_le.mpr h3)
        · exact h3

/-- Near a point that is not a border of a zone, being in a zone does not change. -/
theorem inZone_left {n : ℕ} (hn : 0 < n) {w L A : ℚ} (hL : 0 < L) 
    (hA : ∀ k : ℤ, A ≠ k * (L / n) - w / 2 ∧ A ≠ k * (L / n) + w / 2) :
    ∃ δ, 0 < δ ∧ ∀ s, A - δ < s → s < A → (InZone n w L s ↔ InZone n w L A) := by
  have hn0 : (0 : ℚ) < n := by exact_mod_cast hn
  have hc : 0 < L / n := div_pos hL hn0
  by_cases hz : InZone n w L A
  · obtain ⟨k, h1, h2⟩ := hz
    refine ⟨A - (k * (L / n) - w / 2), sub_pos.mpr (lt_of_le_of_ne h1 (Ne.symm (hA k).1)), fun s hs hs' => ?_⟩
    exact iff_of_true ⟨k, by linarith, by linarith⟩ ⟨k, h1, h2⟩
  · have hfl1 := Int.floor_le ((A + w / 2) / (L / n))
    have hfl2 := Int.lt_floor_add_one ((A + w / 2) / (L / n))
    set k := ⌊(A + w / 2) / (L / n)⌋ with hk
    rw [le_div_iff₀ hc] at hfl1
    rw [div_lt_iff₀ hc] at hfl2
    have h1 : k * (L / n) + w / 2 ≤ A := by
      by_contra hcon
      exact hz ⟨k, by linarith, not_le.mp hcon⟩
    refine ⟨A - (k * (L / n) + w / 2), sub_pos.mpr (lt_of_le_of_ne h1 (Ne.symm (hA k).2)), fun s hs hs' => ?_⟩
    refine iff_of_false ?_ hz
    rintro ⟨i, g1, g2⟩
    rcases le_or_gt i k with hik | hik
    · have : (i : ℚ) * (L / n) ≤ k * (L / n) := by gcongr
      linarith
    · have : ((k : ℚ) + 1) * (L / n) ≤ i * (L / n) := by
        gcongr
        exact_mod_cast hik
      linarith

/-- The transitions of the edges, and that they fit together. -/
theorem wireTabs_fit {w : List Edge} (hne : w ≠ []) (hlen : ∀ e ∈ w, 0 < e.length)
    {t : WireTabs} {n : ℕ} (hn : 0 < n) (hc : t.count = n) (hw : 0 < t.width) {L : ℚ} (hL : L = (w.map Edge.length).sum)
    (hfit : t.width * n < L)
    (hedge : ∀ pre e post, w = pre ++ e :: post → n = 1 ∨ (pre.map Edge.length).sum + e.length + t.width / 2 < L ∨
      (n - 1 : ℚ) * (L / n) + t.width / 2 ≤ (pre.map Edge.length).sum)
    (hcorner : ∀ pre post, w = pre ++ post → ∀ k : ℤ, (pre.map Edge.length).sum ≠ k * (L / n) - t.width / 2 ∧
      (pre.map Edge.length).sum ≠ k * (L / n) + t.width / 2) :
    ∃ tss, Tabs.transitions (.wire t) L w = .ok tss ∧ tss.length = w.length ∧ (∀ ts ∈ tss, ProperTransitions ts) ∧ TabsMeet tss ∧
      WireMarks n t.width L w tss := by
  have hn0 : (0 : ℚ) < n := by exact_mod_cast hn
  have hLpos : 0 < L := lt_of_le_of_lt (by positivity) hfit
  have hC := fun (pre : List Edge) (e : Edge) (post : List Edge) (h : w = pre ++ e :: post) =>
    C50_zones_partial hn hc hw h hlen hL hfit rfl (hedge pre e post h)
  obtain ⟨e0, es0, hw0⟩ := List.exists_cons_of_ne_nil hne
  obtain ⟨tss, -, htr, -, hlent, -⟩ := hC [] e0 es0 hw0
  have hget : ∀ pre e post, w = pre ++ e :: post → ∃ ts, tss[pre.length]? = some ts ∧ ProperTransitions ts ∧
      ∀ x, 0 ≤ x → x < 1 → (MarkedTab ts x ↔ InZone n t.width L ((pre.map Edge.length).sum + x * e.length)) := by
    intro pre e post h
    obtain ⟨tss', ts, g1, g2, -, g3, g4⟩ := hC pre e post h
    rw [htr] at g1
    cases g1
    exact ⟨ts, g2, g3, g4⟩
  have hsplit : ∀ i (hi : i < w.length), w = w.take i ++ w[i] :: w.drop (i + 1) := by
    intro i hi
    rw [List.getElem_cons_drop, List.take_append_drop]
  have hidx : ∀ i (hi : i < w.length), ∃ ts, tss[i]? = some ts ∧ ProperTransitions ts ∧
      ∀ x, 0 ≤ x → x < 1 → (MarkedTab ts x ↔ InZone n t.width L (((w.take i).map Edge.length).sum + x * w[i].length)) := by
    intro i hi
    obtain ⟨ts, g1, g2⟩ := hget _ _ _ (hsplit i hi)
    rw [List.length_take, min_eq_left hi.le] at g1
    exact ⟨ts, g1, g2⟩
  have hstart : ∀ i (hi : i < w.length) ts, tss[i]? = some ts →
      (StartsTab ts ↔ InZone n t.width L (((w.take i).map Edge.length).sum)) := by
    intro i hi ts hts
    obtain ⟨ts', g1, g2, g3⟩ := hidx i hi
    rw [hts] at g1
    cases g1
    rw [startsTab_marked g2.increasing g2.full, g3 0 le_rfl one_pos, zero_mul, add_zero]
  have hend : ∀ i (hi : i < w.length) ts, tss[i]? = some ts →
      (EndsTab ts ↔ InZone n t.width L (((w.take (i + 1)).map Edge.length).sum)) := by
    intro i hi ts hts
    obtain ⟨ts', g1, g2, g3⟩ := hidx i hi
    rw [hts] at g1
    cases g1
    have hlen2 : 2 ≤ ts.length := by
      match ts, g2.full with
      | [], ⟨h0, _⟩ => cases h0
      | [a], ⟨h0, h1⟩ =>
        simp only [List.head?_cons, List.getLast?_singleton, Option.map_some, Option.some.injEq] at h0 h1
        rw [h0] at h1; norm_num at h1
      | _ :: _ :: _, _ => simp
    obtain ⟨p, hp1, hp⟩ := endsTab_marked g2.increasing g2.full.2 hlen2
    have hel := hlen w[i] (List.getElem_mem hi)
    have hsum : ((w.take (i + 1)).map Edge.length).sum = ((w.take i).map Edge.length).sum + w[i].length := by
      rw [List.take_succ_eq_append_getElem hi, List.map_append, List.sum_append, List.map_singleton, List.sum_singleton]
    obtain ⟨δ, hδ, hz⟩ := inZone_left (A := ((w.take (i + 1)).map Edge.length).sum) hn hLpos
      (hcorner _ (w.drop (i + 1)) (List.take_append_drop _ _).symm)
    -- a point near the end
    obtain ⟨x, hx0, hxp, hx1, hxδ⟩ : ∃ x : ℚ, 0 ≤ x ∧ p ≤ x ∧ x < 1 ∧ (1 - x) * w[i].length < δ := by
      have hm : max 0 p < 1 := max_lt one_pos hp1
      refine ⟨max (max 0 p) (1 - δ / w[i].length / 2), ?_, ?_, ?_, ?_⟩
      · exact (le_max_left _ _).trans (le_max_left _ _)
      · exact (le_max_right 0 p).trans (le_max_left _ _)
      · refine max_lt hm ?_
        have : 0 < δ / w[i].length / 2 := by positivity
        linarith
      · have h1 : 1 - max (max 0 p) (1 - δ / w[i].length / 2) ≤ δ / w[i].length / 2 := by
          have := le_max_right (max 0 p) (1 - δ / w[i].length / 2)
          linarith
        calc _ ≤ δ / w[i].length / 2 * w[i].length := by gcongr
          _ = δ / 2 := by field_simp
          _ < δ := by linarith
    rw [hp x hxp hx1, g3 x hx0 hx1]
    apply hz
    · rw [hsum]; linarith
    · rw [hsum]; nlinarith
  have hlast : InZone n t.width L L ↔ InZone n t.width L 0 := by
    have hmul : (n : ℚ) * (L / n) = L := by field_simp
    constructor
    · rintro ⟨k, h1, h2⟩
      refine ⟨k - n, ?_, ?_⟩ <;> push_cast <;> nlinarith
    · rintro ⟨k, h1, h2⟩
      refine ⟨k + n, ?_, ?_⟩ <;> push_cast <;> nlinarith
  have hmeet : TabsMeet tss := by
    constructor
    · rw [List.isChain_iff_getElem]
      intro i hi
      rw [hend i (by omega) _ (List.getElem?_eq_getElem (by omega)), hstart (i + 1) (by omega) _ (List.getElem?_eq_getElem (by omega))]
    · intro a b ha hb
      have hwl : 0 < w.length := List.length_pos_iff.mpr hne
      rw [List.getLast?_eq_getElem?] at hb
      rw [List.head?_eq_getElem?] at ha
      rw [hend _ (by omega) b hb, hstart 0 hwl a ha, hlent, Nat.sub_add_cancel hwl, List.take_length, ← hL]
      simpa using hlast
  have hproper : ∀ ts ∈ tss, ProperTransitions ts := by
    intro ts hts
    obtain ⟨i, hi, rfl⟩ := List.mem_iff_getElem.mp hts
    obtain ⟨ts', g1, g2, -⟩ := hidx i (by omega)
    rw [List.getElem?_eq_getElem hi] at g1
    cases g1
    exact g2
  refine ⟨tss, htr, hlent, hproper, hmeet, ?_⟩
  intro pre e post h
  obtain ⟨ts, g1, -, g2⟩ := hget pre e post h
  exact ⟨ts, g1, g2⟩

/-- C51 for tabs around the wire (as far as it holds: flat passes, no tab that begins or ends exactly at a corner, C50's
restriction for every edge, and a kernel that assembles connected edges).  The pass becomes a connected wire that follows
the pass at its height outside the tab zones, and at the top of the tabs inside them. -/
theorem C51_wire_tabs_partial {cad : Cad} (hA : Assembles cad) {ze tabZ : ℚ} (hz : ze < tabZ) {w : List Edge}
    (hne : w ≠ []) (hbox : cad.zmin w = ze) (hflat : ∀ e ∈ w, FlatEdge ze e) (hlen : ∀ e ∈ w, 0 < e.length) (hch : Chained w)
    {t : WireTabs} {n : ℕ} (hn : 0 < n) (hc : t.count = n) (hw : 0 < t.width) {L : ℚ} (hL : L = (w.map Edge.length).sum)
    (hcad : cad.wireLength w = L) (hfit : t.width * n < L)
    (hedge : ∀ pre e post, w = pre ++ e :: post → n = 1 ∨ (pre.map Edge.length).sum + e.length + t.width / 2 < L ∨
      (n - 1 : ℚ) * (L / n) + t.width / 2 ≤ (pre.map Edge.length).sum)
    (hcorner : ∀ pre post, w = pre ++ post → ∀ k : ℤ, (pre.map Edge.length).sum ≠ k * (L / n) - t.width / 2 ∧
      (pre.map Edge.length).sum ≠ k * (L / n) + t.width / 2) :
    ∃ tss w', applyTabs cad tabZ (.wire t) w = .ok w' ∧ TabbedWire tabZ w tss w' ∧ Chained w' ∧ (Closes w → Closes w') ∧
      w'.Pairwise (fun a b => a.id ≠ b.id) ∧ WireMarks n t.width L w tss ∧ ∀ ts ∈ tss, FullEdge ts := by
  obtain ⟨tss, htr, hlent, hproper, hmeet, hmarks⟩ := wireTabs_fit hne hlen hn hc hw hL hfit hedge hcorner
  obtain ⟨w', h1, h2, h3, h4, h5⟩ := C51_tabs_partial hA hz hne hbox hflat hch (tabs := .wire t) (tss := tss)
    (by rw [hcad]; exact htr) hlent hproper hmeet
  exact ⟨tss, w', h1, h2, h3, h4, h5, hmarks, fun ts hts => (hproper ts hts).full⟩

/-! ### The moves -/

/-- The heights of the edge's ends satisfy `P`, and those of all its points if it is not straight. -/
structure EdgeEnds (P : ℚ → Prop) (e : Edge) : Prop where
  start : P (edgeStartPoint e).z
  fin : P (edgeEndPoint e).z
  curve : e.geom = .line ∨ EdgeAt P e

theorem edgeEnds_of_at {P : ℚ → Prop} {e : Edge} (h : EdgeAt P e) : EdgeEnds P e :=
  ⟨edgeAt_start h, edgeAt_end h, Or.inr h⟩

theorem routeEdge_ends' {P : ℚ → Prop} {veq : Vec → Vec → Bool} {e : Edge} {prec : ℕ}
    {feed : Option PyNum} {cs : List Motion} {v : Vec} (hP : EdgeEnds P e)
    (h : routeEdge veq e prec none none feed = .ok (cs, v)) : ∀ c ∈ cs, EndsAt P c := by
  rcases hP.curve with hl | hc
  · unfold routeEdge at h
    rw [hl] at h
    cases h
    intro c hc
    rw [List.mem_singleton] at hc
    subst hc
    exact endsAt_vec rfl hP.fin
  · exact routeEdge_ends hc h

theorem routeEdges_ends' {P : ℚ → Prop} {veq : Vec → Vec → Bool} {j : Job} {es : List Edge} (hP : ∀ e ∈ es, EdgeEnds P e)
    {fin v : Vec} {cs : List Motion} (h : routeEdges veq j fin es = .ok (cs, v)) : ∀ c ∈ cs, EndsAt P c := by
  induction es generalizing fin cs v with
  | nil => cases h; simp
  | cons e es ih =>
    unfold routeEdges at h
    cases h1 : routeEdge veq e j.precision none none (some j.feed) with
    | error x => rw [h1] at h; cases h
    | ok r =>
      obtain ⟨a, b⟩ := r
      rw [h1] at h
      simp only at h
      cases h2 : routeEdges veq j b es with
      | error x => rw [h2] at h; cases h
      | ok r =>
        obtain ⟨a', b'⟩ := r
        rw [h2] at h
        cases h
        intro c hc
        rcases List.mem_append.mp hc with hc | hc
        · exact routeEdge_ends' (hP e (by simp)) h1 c hc
        · exact ih (fun e he => hP e (by simp [he])) h2 c hc

theorem routeWires_ends' {P : ℚ → Prop} {veq : Vec → Vec → Bool} {j : Job} {wires : List (List Edge)}
    {prev : Option AddrVec} {cs : List Motion} (hP : ∀ w ∈ wires, ∀ e ∈ w, EdgeEnds P e)
    (h : routeWires veq (fun _ _ => none) j wires none prev = .ok cs) :
    ∀ c ∈ cs, c.kind.mot ≠ .rapid → EndsAt P c := by
  have key : ∀ (ws : List (List Edge)) (acc : List Motion) (pwe : Option Vec) (pos : AddrVec) (cs : List Motion),
      (∀ w ∈ ws, ∀ e ∈ w, EdgeEnds P e) → (∀ c ∈ acc, c.kind.mot ≠ .rapid → EndsAt P c) →
      routeWiresFrom veq (fun _ _ => none) j none acc pwe pos ws = .ok cs →
      ∀ c ∈ cs, c.kind.mot ≠ .rapid → EndsAt P c := by
    intro ws
    induction ws with
    | nil => intro acc pwe pos cs _ ha h; cases h; exact ha
    | cons w ws ih =>
      intro acc pwe pos cs hw ha h
      cases w with
      | nil => cases h; simp
      | cons e es =>
        have hn : (pwe.bind fun _ : Vec => (none : Option WireHit)) = none := by cases pwe <;> rfl
        simp only [routeWiresFrom, hn] at h
        have he : enterWire veq j none none pos (e :: es) = .ok (e :: es,
          rapidTo pos (edgeStartPoint e) j.rapidHeight (some j.opSafeHeight) (some j.plungeFeed)) := rfl
        simp only [routeWire, he, Option.bind_none] at h
        cases h1 : routeEdge veq e j.precision none none (some j.feed) with
        | error x => rw [h1] at h; cases h
        | ok r =>
          obtain ⟨a, b⟩ := r
          rw [h1] at h
          simp only at h
          cases h2 : routeEdges veq j b es with
          | error x => rw [h2] at h; cases h
          | ok r =>
            obtain ⟨a', b'⟩ := r
            rw [h2] at h
            simp only at h
            refine ih _ _ _ _ (fun w hw' => hw w (by simp [hw'])) ?_ h
            intro c hc hk
            have hee := hw (e :: es) (by simp)
            simp only [List.mem_append] at hc
            rcases hc with hc | (hc | hc) | hc
            · exact ha c hc hk
            · refine ⟨(edgeStartPoint e).z, ?_, (hee e (by simp)).start⟩
              rw [(rapidTo_feeds _ _ _ _ _ c hc hk).2.2.2]
            · exact routeEdge_ends' (hee e (by simp)) h1 c hc
            · exact routeEdges_ends' (fun x hx => hee x (by simp [hx])) h2 c hc
  exact key wires [] none (prev.getD {}) cs hP (by simp) h

/-- The new edges can be routed, and end at one of the two heights. -/
theorem tabPath_ok {ze z : ℚ} {e : Edge} (h : FlatEdge ze e) (hr : Routable e) (ts : List (ℚ × Transition)) :
    ∀ es, TabPath z e ts es → ∀ p ∈ es, EdgeOK p ∧ Routable p ∧ EdgeEnds (fun x => x = ze ∨ x = z) p := by
  have hpiece : ∀ {a b : ℚ} {tr : Transition} {p : Edge}, IsPiece z e a b (tr = .tab) p →
      EdgeOK p ∧ Routable p ∧ EdgeEnds (fun x => x = ze ∨ x = z) p := by
    intro a b tr p hp
    refine ⟨hp.ok, ⟨by rw [hp.kind.1]; exact hr.1, fun hc => ?_⟩, edgeEnds_of_at (edgeAt_mono ?_ (piece_at h hp))⟩
    · rw [hp.kind.2.2.1]
      apply hr.2
      unfold Edge.circular at hc ⊢
      rw [hp.kind.1] at hc
      exact hc
    · rintro x rfl
      split
      · exact Or.inr rfl
      · exact Or.inl rfl
  induction ts with
  | nil => intro es hes; cases hes; simp
  | cons t1 ts ih =>
    match ts, ih with
    | [], _ => intro es hes; cases hes; simp
    | [t2], _ =>
      rintro es ⟨p, rfl, hp⟩ q hq
      rw [List.mem_singleton] at hq
      subst hq
      exact hpiece hp
    | t2 :: t3 :: ts, ih =>
      rintro es ⟨p, c, p', rest, rfl, hp, hc, htp⟩ q hq
      have hrest := ih _ htp
      rcases List.mem_cons.mp hq with rfl | hq
      · exact hpiece hp
      rcases List.mem_cons.mp hq with rfl | hq
      · refine ⟨hc.ok, ⟨by rw [hc.line]; simp, fun hcc => ?_⟩, ?_, ?_, Or.inl hc.line⟩
        · unfold Edge.circular at hcc
          rw [hc.line] at hcc
          rcases hcc with h | h <;> cases h
        · rw [edgeStartPoint_eq hc.ok, hc.path 0]
          have h1 := (hpiece hp).2.2.fin
          rw [edgeEndPoint_eq hp.ok] at h1
          simpa using h1
        · rw [edgeEndPoint_eq hc.ok, hc.path 1]
          have h1 := (hrest p' (by simp)).2.2.start
          rw [edgeStartPoint_eq (hrest p' (by simp)).1] at h1
          simpa using h1
      · exact hrest q hq

theorem sameCurves_mem {es es' : List Edge} (h : SameCurves es es') : ∀ e' ∈ es', ∃ e ∈ es, ∃ i, e' = { e with id := i } := by
  induction h with
  | nil => simp
  | cons hab _ ih =>
    obtain ⟨i, rfl⟩ := hab
    intro e' he'
    rcases List.mem_cons.mp he' with rfl | he'
    · exact ⟨_, by simp, i, rfl⟩
    · obtain ⟨e, he, hi⟩ := ih e' he'
      exact ⟨e, by simp [he], hi⟩

/-- The tabbed wire can be routed, and its edges end at one of the two heights. -/
theorem tabbedWire_ok {ze z : ℚ} {w w' : List Edge} {tss : List (List (ℚ × Transition))} (hw : WireOK w)
    (hflat : ∀ e ∈ w, FlatEdge ze e) (hf : ∀ ts ∈ tss, FullEdge ts) (ht : TabbedWire z w tss w')
    (hd : w'.Pairwise (fun a b => a.id ≠ b.id)) :
    WireOK w' ∧ ∀ e ∈ w', EdgeEnds (fun x => x = ze ∨ x = z) e := by
  obtain ⟨hlen, blocks, hb, hs⟩ := ht
  have hall : ∀ p ∈ blocks.flatten, EdgeOK p ∧ Routable p ∧ EdgeEnds (fun x => x = ze ∨ x = z) p := by
    intro p hp
    obtain ⟨b, hbm, hp⟩ := List.mem_flatten.mp hp
    obtain ⟨q, hq, hqb⟩ := forall₂_mem_right hb hbm
    have he : q.1 ∈ w := (List.of_mem_zip hq).1
    rcases hqb with ⟨rfl, -⟩ | hqb
    · rw [List.mem_singleton] at hp
      subst hp
      exact ⟨hw.edgeOK _ he, hw.routable _ he, edgeEnds_of_at (edgeAt_mono (fun _ h => Or.inl h) (hflat _ he).flat)⟩
    · exact tabPath_ok (hflat _ he) (hw.routable _ he) _ _ hqb p hp
  have hne : blocks.flatten ≠ [] := by
    obtain ⟨e, es, rfl⟩ := List.exists_cons_of_ne_nil hw.nonempty
    obtain ⟨ts, tss, rfl⟩ : ∃ a b, tss = a :: b := List.exists_cons_of_ne_nil (by rintro rfl; cases hlen)
    cases hb with
    | cons h1 _ =>
      obtain ⟨f, l, h2, -⟩ := tabbedEdge_ends (hflat e (by simp)) (hf ts (by simp)) h1
      intro h
      rw [List.flatten_cons] at h
      rw [(List.append_eq_nil_iff.mp h).1] at h2
      cases h2
  refine ⟨⟨?_, ?_, ?_, hd⟩, ?_⟩
  · rintro rfl
    cases hs' : blocks.flatten with
    | nil => exact hne hs'
    | cons _ _ => rw [hs'] at hs; cases hs
  all_goals
    intro e' he'
    obtain ⟨e, he, i, rfl⟩ := sameCurves_mem hs e' he'
    obtain ⟨h1, h2, h3⟩ := hall e he
  · exact ⟨h1.param0, h1.param1, h1.len0, h1.len1⟩
  · exact h2
  · exact ⟨h3.start, h3.fin, h3.curve.imp id (fun h => ⟨h.start, h.fin, h.param, h.len⟩)⟩

theorem flatEdge_up {z dz : ℚ} {e : Edge} (h : FlatEdge z e) : FlatEdge (z + dz) (e.up dz) where
  flat := edgeAt_up h.flat
  consistent d := by simp only [Edge.up, h.consistent]
  start := by simp only [Edge.up, h.start]
  fin := by simp only [Edge.up, h.fin]

theorem chained_up {w : List Edge} (h : Chained w) (dz : ℚ) : Chained (w.map (Edge.up dz)) := by
  induction w with
  | nil => trivial
  | cons a w ih =>
    cases w with
    | nil => trivial
    | cons b w =>
      refine ⟨?_, ih h.2⟩
      exact congrArg (Vec.up dz) h.1

/-- The passes of one contour with tabs along its edges. -/
theorem tabbedLayers {cad : Cad} (hA : Assembles cad) {tabZ : ℚ} {spacing width height : ℚ} {only : Option Geom}
    {t : EdgeTabs} (hnew : EdgeTabs.new spacing width height only = .ok t) (hw : 0 < width)
    (hs : 3 * width < 2 * spacing) {layers : List (List Edge)}
    (hl : ∀ l ∈ layers, WireOK l ∧ Chained l ∧ (∀ e ∈ l, 0 < e.length) ∧ ∀ e ∈ l, FlatEdge (cad.zmin l) e) :
    ∃ passes, mapE (applyTabs cad tabZ (.edge t)) layers = .ok passes ∧
      List.Forall₂ (TabbedPass cad tabZ (EdgeMarks t)) layers passes ∧
      List.Forall₂ (fun l w => WireOK w ∧ ∀ e ∈ w, EdgeEnds (fun x => x = cad.zmin l ∨ x = tabZ) e) layers passes := by
  induction layers with
  | nil => exact ⟨[], rfl, .nil, .nil⟩
  | cons l ls ih =>
    obtain ⟨ps, h1, h2, h3⟩ := ih (fun x hx => hl x (by simp [hx]))
    obtain ⟨hok, hch, hlen, hflat⟩ := hl l (by simp)
    have hone : ∃ p, applyTabs cad tabZ (.edge t) l = .ok p ∧ TabbedPass cad tabZ (EdgeMarks t) l p ∧
        WireOK p ∧ ∀ e ∈ p, EdgeEnds (fun x => x = cad.zmin l ∨ x = tabZ) e := by
      rcases le_or_gt tabZ (cad.zmin l) with hz | hz
      · exact ⟨l, C51_above hz, Or.inl ⟨hz, rfl⟩, hok, fun e he =>
          edgeEnds_of_at (edgeAt_mono (fun _ h => Or.inl h) (hflat e he).flat)⟩
      · obtain ⟨tss, w', g1, g2, g3, -, g5, g6, g7⟩ := C51_edge_tabs_partial hA hz hok.nonempty rfl hflat hlen hch hnew hw hs
        obtain ⟨g8, g9⟩ := tabbedWire_ok hok hflat g7 g2 g5
        exact ⟨w', g1, Or.inr ⟨hz, tss, g6, g2, g3⟩, g8, g9⟩
    obtain ⟨p, h4, h5, h6⟩ := hone
    refine ⟨p :: ps, ?_, .cons h5 h2, .cons h6 h3⟩
    unfold mapE
    rw [h4, ok_bind, h1]
    rfl

/-- C51, a whole profile with tabs along edges (as far as it holds: flat contours, C46's and C49's restrictions, and a
kernel that assembles connected edges).  For each contour the passes of C46 are cut in order, each with the tabs; and
every feed move ends at the height of its contour, at the top of the tabs, or at the height of a raised pass. -/
theorem C51_profile_partial {cad : Cad} (hA : Assembles cad) {j : Job} {wire : List Edge} {offset s r : ℚ}
    {bases : List (List Edge)} (hb : BoxMoves cad) (hk : KeepsBelow cad j.top) (hr : j.toolRadius = some r)
    (ho : offsetWire cad (wire.map (Edge.toLocal j.top)) (offset * r) = .ok bases) (hs : 0 < s)
    (hw : ∀ b ∈ bases, WireOK b ∧ Chained b ∧ (∀ e ∈ b, 0 < e.length) ∧ (∀ e ∈ b, FlatEdge (cad.zmin b) e) ∧
      -1 / 1000 ≤ cad.zmin b + 101 * s)
    (hv : ∀ w, NearestIsVertex cad w) {spacing width height : ℚ} {only : Option Geom}
    {t : EdgeTabs} (hnew : EdgeTabs.new spacing width height only = .ok t) (hwd : 0 < width)
    (hsp : 3 * width < 2 * spacing) :
    ∃ (blocks : List (List (List Motion))), profile cad j wire offset (some s) (some (.edge t)) = .ok blocks.flatten.flatten ∧
      List.Forall₂ (fun base block => ∃ layers passes, Passes cad s base layers ∧
        List.Forall₂ (TabbedPass cad (cad.zmin base + height) (EdgeMarks t)) layers passes ∧
        List.Forall₂ (WholeWire cad.veq j.feed none) passes block) bases blocks ∧
      ∀ c ∈ blocks.flatten.flatten, c.kind.mot ≠ .rapid → EndsAt (fun h => ∃ b ∈ bases, h = cad.zmin b + height ∨
        ∃ k : ℕ, k ≤ 100 ∧ h = cad.zmin b + k * s ∧ (k = 0 ∨ h < -1 / 1000)) c := by
  have hheight : t.height = height := by
    unfold EdgeTabs.new at hnew
    split at hnew <;> cases hnew
    rfl
  have hl : ∃ pss, mapE (profileFeature cad j.top (some s) (some (.edge t))) bases = .ok pss ∧
      List.Forall₂ (fun base passes => ∃ layers, Passes cad s base layers ∧
        List.Forall₂ (TabbedPass cad (cad.zmin base + height) (EdgeMarks t)) layers passes) bases pss ∧
      (∀ ps ∈ pss, ∀ w ∈ ps, WireOK w) ∧
      ∀ ps ∈ pss, ∀ w ∈ ps, ∀ e ∈ w, EdgeEnds (fun h => ∃ b ∈ bases, h = cad.zmin b + height ∨
        ∃ k : ℕ, k ≤ 100 ∧ h = cad.zmin b + k * s ∧ (k = 0 ∨ h < -1 / 1000)) e := by
    clear ho
    induction bases with
    | nil => exact ⟨[], rfl, .nil, by simp, by simp⟩
    | cons b bs ih =>
      obtain ⟨pss, h1, h2, h3, h3'⟩ := ih (fun x hx => hw x (by simp [hx]))
      obtain ⟨hwb, hcb, hlb, hfb, hzb⟩ := hw b (by simp)
      obtain ⟨ls, h4, h5⟩ := (C46_passes_partial hb hk hwb.nonempty hs).2 hzb
      have hlayers : ∀ l ∈ ls, WireOK l ∧ Chained l ∧ (∀ e ∈ l, 0 < e.length) ∧ ∀ e ∈ l, FlatEdge (cad.zmin l) e := by
        intro l hl
        rcases profileLayers_mem h4 l hl with rfl | ⟨s', -, k, -, -, rfl, -⟩
        · exact ⟨hwb, hcb, hlb, hfb⟩
        · refine ⟨wireOK_up hwb _, chained_up hcb _, ?_, ?_⟩
          · intro e he
            obtain ⟨x, hx, rfl⟩ := List.mem_map.mp he
            exact hlb x hx
          · intro e he
            obtain ⟨x, hx, rfl⟩ := List.mem_map.mp he
            rw [zmin_up hb hwb.nonempty]
            exact flatEdge_up (hfb x hx)
      obtain ⟨ps, h6, h7, h8⟩ := tabbedLayers hA (tabZ := cad.zmin b + height) hnew hwd hsp hlayers
      refine ⟨ps :: pss, ?_, .cons ⟨ls, h5, h7⟩ h2, ?_, ?_⟩
      · unfold mapE
        rw [show profileFeature cad j.top (some s) (some (.edge t)) b = .ok ps from by
          simp only [profileFeature, h4, ok_bind, Tabs.height, hheight, h6], ok_bind, h1]
        rfl
      · intro qs hqs w hwq
        rcases List.mem_cons.mp hqs with rfl | hqs
        · obtain ⟨l, -, hl⟩ := forall₂_mem_right h8 hwq
          exact hl.1
        · exact h3 qs hqs w hwq
      · intro qs hqs w hwq e he
        rcases List.mem_cons.mp hqs with rfl | hqs
        · obtain ⟨l, hl, -, hee⟩ := forall₂_mem_right h8 hwq
          have hmono : ∀ h, (h = cad.zmin l ∨ h = cad.zmin b + height) → ∃ b' ∈ b :: bs, h = cad.zmin b' + height ∨
              ∃ k : ℕ, k ≤ 100 ∧ h = cad.zmin b' + k * s ∧ (k = 0 ∨ h < -1 / 1000) := by
            rintro h (rfl | rfl)
            · refine ⟨b, by simp, Or.inr ?_⟩
              rcases profileLayers_mem h4 l hl with rfl | ⟨s', hs', k, k1, k2, rfl, k4⟩
              · exact ⟨0, by norm_num, by simp, Or.inl rfl⟩
              · cases hs'
                refine ⟨k, k2, ?_, Or.inr k4⟩
                rw [zmin_up hb hwb.nonempty]; ring
            · exact ⟨b, by simp, Or.inl rfl⟩
          have := hee e he
          exact ⟨hmono _ this.start, hmono _ this.fin, this.curve.imp id (edgeAt_mono hmono)⟩
        · have := h3' qs hqs w hwq e he
          have hmono : ∀ h, (∃ b' ∈ bs, h = cad.zmin b' + height ∨
              ∃ k : ℕ, k ≤ 100 ∧ h = cad.zmin b' + k * s ∧ (k = 0 ∨ h < -1 / 1000)) → ∃ b' ∈ b :: bs, h = cad.zmin b' + height ∨
              ∃ k : ℕ, k ≤ 100 ∧ h = cad.zmin b' + k * s ∧ (k = 0 ∨ h < -1 / 1000) := by
            rintro h ⟨b', hb', hh⟩
            exact ⟨b', by simp [hb'], hh⟩
          exact ⟨hmono _ this.start, hmono _ this.fin, this.curve.imp id (edgeAt_mono hmono)⟩
  obtain ⟨pss, h1, h2, h3, h3'⟩ := hl
  obtain ⟨bs, h4, h5⟩ := routeWires_whole (veq := cad.veq) (search := cad.search) (j := j) (ws := pss.flatten)
    (fun w _ => hv w)
    (by
      intro w hw
      obtain ⟨l, hl, hw⟩ := List.mem_flatten.mp hw
      exact h3 l hl w hw)
  have hsplit : ∀ {lss : List (List (List Edge))} {bs : List (List Motion)},
      List.Forall₂ (WholeWire cad.veq j.feed none) lss.flatten bs →
      ∃ blocks : List (List (List Motion)), bs = blocks.flatten ∧
        List.Forall₂ (List.Forall₂ (WholeWire cad.veq j.feed none)) lss blocks := by
    intro lss
    induction lss with
    | nil => intro bs h; cases h; exact ⟨[], rfl, .nil⟩
    | cons l ls ih =>
      intro bs h
      rw [List.flatten_cons] at h
      obtain ⟨l1, l2, g1, g2, rfl⟩ := forall₂_append_left h
      obtain ⟨blocks, rfl, g3⟩ := ih g2
      exact ⟨l1 :: blocks, by simp, .cons g1 g3⟩
  obtain ⟨blocks, rfl, h6⟩ := hsplit h5
  refine ⟨blocks, ?_, ?_, ?_⟩
  · simp only [profile, profileWires, hr, ho, ok_bind, h1]
    exact h4
  · clear h1 h3 h4 h5 ho hw hv h3'
    induction h2 generalizing blocks with
    | nil => cases h6; exact .nil
    | cons p ps ih =>
      obtain ⟨layers, p1, p2⟩ := p
      cases h6 with
      | cons q qs => exact .cons ⟨layers, _, p1, p2, q⟩ (ih _ qs)
  · rw [routeWires_vertex (fun w _ => hv w)] at h4
    refine routeWires_ends' ?_ h4
    intro w hw
    obtain ⟨l, hl, hw⟩ := List.mem_flatten.mp hw
    exact h3' l hl w hw

end CQ
