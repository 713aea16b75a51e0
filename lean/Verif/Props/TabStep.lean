import Verif.Props.TabRun
import Verif.Props.Placement
import Verif.Props.ProfileStep
import Verif.Spec.TabStep

/-! # C151: a profile with tabs never takes more than a stepdown at once -/

namespace CQ

/-- `x` is between two consecutive transitions of which the first satisfies `P`. -/
def BetweenMarks (P : Transition → Prop) : List (ℚ × Transition) → ℚ → Prop
  | p :: q :: ts, x => (P p.2 ∧ p.1 ≤ x ∧ x ≤ q.1) ∨ BetweenMarks P (q :: ts) x
  | _, _ => False

theorem betweenMarks_imp {P Q : Transition → Prop} {x : ℚ} : ∀ {ts : List (ℚ × Transition)}, (∀ t ∈ ts, P t.2 → Q t.2) →
    BetweenMarks P ts x → BetweenMarks Q ts x
  | p :: q :: ts, h, .inl hx => .inl ⟨h p (by simp) hx.1, hx.2⟩
  | _ :: q :: ts, h, .inr hx => .inr (betweenMarks_imp (fun t ht => h t (by simp [ht])) hx)

theorem betweenMarks_full {ts : List (ℚ × Transition)} (hf : FullEdge ts) {x : ℚ} (h0 : 0 ≤ x) (h1 : x ≤ 1) :
    BetweenMarks (fun _ => True) ts x := by
  have key : ∀ (ts : List (ℚ × Transition)) (a b l : ℚ × Transition), (a :: b :: ts).getLast? = some l → a.1 ≤ x → x ≤ l.1 →
      BetweenMarks (fun _ => True) (a :: b :: ts) x := by
    intro ts
    induction ts with
    | nil =>
      intro a b l hl ha hx
      cases hl
      exact .inl ⟨trivial, ha, hx⟩
    | cons c ts ih =>
      intro a b l hl ha hx
      rcases le_or_gt x b.1 with hb | hb
      · exact .inl ⟨trivial, ha, hb⟩
      · exact .inr (ih b c l (by rwa [List.getLast?_cons_cons] at hl) hb.le hx)
  obtain ⟨hh, hl⟩ := hf
  match ts, hh, hl with
  | [], hh, _ => cases hh
  | [a], hh, hl =>
    simp only [List.head?_cons, List.getLast?_singleton, Option.map_some, Option.some.injEq] at hh hl
    rw [hh] at hl; norm_num at hl
  | a :: b :: ts, hh, hl =>
    obtain ⟨l, hl', hl1⟩ := Option.map_eq_some_iff.mp hl
    simp only [List.head?_cons, Option.map_some, Option.some.injEq] at hh
    exact key ts a b l hl' (by rw [hh]; exact h0) (by rw [hl1]; exact h1)

theorem betweenMarks_range {P : Transition → Prop} {ts : List (ℚ × Transition)} (hi : Increasing ts) (hf : FullEdge ts) {x : ℚ}
    (h : BetweenMarks P ts x) : 0 ≤ x ∧ x ≤ 1 := by
  have key : ∀ (ts : List (ℚ × Transition)) (a b l : ℚ × Transition), Increasing (a :: b :: ts) → (a :: b :: ts).getLast? = some l →
      BetweenMarks P (a :: b :: ts) x → a.1 ≤ x ∧ x ≤ l.1 := by
    intro ts
    induction ts with
    | nil =>
      rintro a b l hi hl (⟨-, h1, h2⟩ | h)
      · cases hl
        exact ⟨h1, h2⟩
      · cases h
    | cons c ts ih =>
      rintro a b l hi hl h
      rw [List.getLast?_cons_cons] at hl
      have hab := (List.pairwise_cons.mp hi).1 b (by simp)
      have hi' := (List.pairwise_cons.mp hi).2
      rcases h with ⟨-, h1, h2⟩ | h
      · have hmem : l ∈ c :: ts := by
          rw [List.getLast?_cons_cons] at hl
          exact List.mem_of_getLast? hl
        exact ⟨h1, h2.trans ((List.pairwise_cons.mp hi').1 l hmem).le⟩
      · obtain ⟨k1, k2⟩ := ih b c l hi' hl h
        exact ⟨hab.le.trans k1, k2⟩
  obtain ⟨hh, hl⟩ := hf
  match ts, hh, hl, h with
  | a :: b :: ts, hh, hl, h =>
    obtain ⟨l, hl', hl1⟩ := Option.map_eq_some_iff.mp hl
    simp only [List.head?_cons, Option.map_some, Option.some.injEq] at hh
    obtain ⟨k1, k2⟩ := key ts a b l hi hl' h
    exact ⟨hh ▸ k1, hl1 ▸ k2⟩

/-- Where the edges of a tabbed edge are, and how low. -/
theorem tabPath_low {ze z : ℚ} {e : Edge} (hflat : ∀ t, (e.travel t).z = ze) (hz : ze ≤ z) (ts : List (ℚ × Transition)) :
    ∀ t1 t2 es, Increasing (t1 :: t2 :: ts) → Alternates (t1 :: t2 :: ts) → TabPath z e (t1 :: t2 :: ts) es → ∀ p ∈ es, ∀ u, 0 ≤ u →
      u ≤ 1 → ∃ x, (p.travel u).xy = (e.travel x).xy ∧ BetweenMarks (fun _ => True) (t1 :: t2 :: ts) x ∧ ze ≤ (p.travel u).z ∧
        (z ≤ (p.travel u).z ∨ BetweenMarks (· ≠ .tab) (t1 :: t2 :: ts) x) := by
  have hpiece : ∀ (t1 t2 : ℚ × Transition) (ts : List (ℚ × Transition)) p, t1.1 < t2.1 → IsPiece z e t1.1 t2.1 (t1.2 = .tab) p →
      ∀ u, 0 ≤ u → u ≤ 1 → ∃ x, (p.travel u).xy = (e.travel x).xy ∧ BetweenMarks (fun _ => True) (t1 :: t2 :: ts) x ∧
        ze ≤ (p.travel u).z ∧ (z ≤ (p.travel u).z ∨ BetweenMarks (· ≠ .tab) (t1 :: t2 :: ts) x) := by
    intro t1 t2 ts p h12 hp u h0 h1
    have hpath := hp.path u
    simp only [Prod.mk.injEq] at hpath
    have hx0 : t1.1 ≤ t1.1 + u * (t2.1 - t1.1) := by nlinarith
    have hx1 : t1.1 + u * (t2.1 - t1.1) ≤ t2.1 := by nlinarith
    refine ⟨t1.1 + u * (t2.1 - t1.1), ?_, .inl ⟨trivial, hx0, hx1⟩, ?_, ?_⟩
    · simp only [Vec.xy, hpath.1, hpath.2]
    · by_cases ht : t1.2 = .tab
      · rw [hp.tabHeight ht]; exact hz
      · rw [hp.ownHeight ht, hflat]
    · by_cases ht : t1.2 = .tab
      · exact .inl (hp.tabHeight ht u).ge
      · exact .inr (.inl ⟨ht, hx0, hx1⟩)
  induction ts with
  | nil =>
    rintro t1 t2 es hi - ⟨p, rfl, hp⟩ q hq u h0 h1
    cases List.mem_singleton.mp hq
    exact hpiece t1 t2 [] p ((List.pairwise_cons.mp hi).1 t2 (by simp)) hp u h0 h1
  | cons t3 ts ih =>
    rintro t1 t2 es hi ⟨ha, ha'⟩ ⟨p, c, p', rest, rfl, hp, hc, htp⟩ q hq u h0 h1
    have h12 := (List.pairwise_cons.mp hi).1 t2 (by simp)
    have hi' := (List.pairwise_cons.mp hi).2
    have h23 := (List.pairwise_cons.mp hi').1 t3 (by simp)
    have hrest := ih t2 t3 _ hi' ha' htp
    rcases List.mem_cons.mp hq with rfl | hq
    · exact hpiece t1 t2 _ q h12 hp u h0 h1
    rcases List.mem_cons.mp hq with rfl | hq
    · obtain ⟨-, -, -, hp0, -⟩ := hpiece t1 t2 [] p h12 hp 1 zero_le_one le_rfl
      obtain ⟨-, -, -, hp1, -⟩ := hrest p' (by simp) 0 le_rfl zero_le_one
      have hend := hp.path 1
      rw [show t1.1 + 1 * (t2.1 - t1.1) = t2.1 by ring] at hend
      simp only [Prod.mk.injEq] at hend
      refine ⟨t2.1, ?_, .inl ⟨trivial, h12.le, le_rfl⟩, ?_, .inr ?_⟩
      · rw [hc.path u]
        simp only [Vec.xy, hend.1, hend.2]
      · rw [hc.path u]
        simp only
        nlinarith
      · by_cases ht : t1.2 = .tab
        · exact .inr (.inl ⟨ha.mp ht, le_rfl, h23.le⟩)
        · exact .inl ⟨ht, h12.le, le_rfl⟩
    · obtain ⟨x, k1, k2, k3, k4⟩ := hrest q hq u h0 h1
      exact ⟨x, k1, .inr k2, k3, k4.imp id .inr⟩

/-- Every place of the edge is passed. -/
theorem tabPath_high {P : Transition → Prop} {ze z : ℚ} {e : Edge} (hflat : ∀ t, (e.travel t).z = ze) (ts : List (ℚ × Transition)) :
    ∀ t1 t2 es, Increasing (t1 :: t2 :: ts) → TabPath z e (t1 :: t2 :: ts) es → ∀ x, BetweenMarks P (t1 :: t2 :: ts) x →
      ∃ t, P t ∧ ∃ p ∈ es, ∃ u, 0 ≤ u ∧ u ≤ 1 ∧ (p.travel u).xy = (e.travel x).xy ∧ (p.travel u).z = if t = .tab then z else ze := by
  have hpiece : ∀ (t1 t2 : ℚ × Transition) p, t1.1 < t2.1 → IsPiece z e t1.1 t2.1 (t1.2 = .tab) p → ∀ x, t1.1 ≤ x → x ≤ t2.1 →
      ∃ u, 0 ≤ u ∧ u ≤ 1 ∧ (p.travel u).xy = (e.travel x).xy ∧ (p.travel u).z = if t1.2 = .tab then z else ze := by
    intro t1 t2 p h12 hp x h0 h1
    have hd : 0 < t2.1 - t1.1 := by linarith
    refine ⟨(x - t1.1) / (t2.1 - t1.1), div_nonneg (by linarith) hd.le, (div_le_one hd).mpr (by linarith), ?_, ?_⟩
    · have hpath := hp.path ((x - t1.1) / (t2.1 - t1.1))
      rw [show t1.1 + (x - t1.1) / (t2.1 - t1.1) * (t2.1 - t1.1) = x by field_simp; ring] at hpath
      simp only [Prod.mk.injEq] at hpath
      simp only [Vec.xy, hpath.1, hpath.2]
    · split
      · exact hp.tabHeight ‹_› _
      · rw [hp.ownHeight ‹_›, hflat]
  induction ts with
  | nil =>
    rintro t1 t2 es hi ⟨p, rfl, hp⟩ x (⟨hP, h0, h1⟩ | h)
    · exact ⟨t1.2, hP, p, by simp, hpiece t1 t2 p ((List.pairwise_cons.mp hi).1 t2 (by simp)) hp x h0 h1⟩
    · cases h
  | cons t3 ts ih =>
    rintro t1 t2 es hi ⟨p, c, p', rest, rfl, hp, hc, htp⟩ x (⟨hP, h0, h1⟩ | h)
    · exact ⟨t1.2, hP, p, by simp, hpiece t1 t2 p ((List.pairwise_cons.mp hi).1 t2 (by simp)) hp x h0 h1⟩
    · obtain ⟨t, hP, q, hq, hu⟩ := ih t2 t3 _ (List.pairwise_cons.mp hi).2 htp x h
      exact ⟨t, hP, q, List.mem_cons_of_mem _ (List.mem_cons_of_mem _ hq), hu⟩

theorem full_cons_cons {ts : List (ℚ × Transition)} (hf : FullEdge ts) : ∃ a b r, ts = a :: b :: r := by
  obtain ⟨hh, hl⟩ := hf
  match ts, hh, hl with
  | [a], hh, hl =>
    simp only [List.head?_cons, List.getLast?_singleton, Option.map_some, Option.some.injEq] at hh hl
    rw [hh] at hl; norm_num at hl
  | a :: b :: r, _, _ => exact ⟨a, b, r, rfl⟩

theorem tabbedEdge_low {ze z : ℚ} {e : Edge} (hflat : ∀ t, (e.travel t).z = ze) (hz : ze ≤ z) {ts : List (ℚ × Transition)}
    (hp : ProperTransitions ts) {es : List Edge} (h : TabbedEdge z e ts es) : ∀ p ∈ es, ∀ u, 0 ≤ u → u ≤ 1 →
    ∃ x, 0 ≤ x ∧ x ≤ 1 ∧ (p.travel u).xy = (e.travel x).xy ∧ ze ≤ (p.travel u).z ∧
      (z ≤ (p.travel u).z ∨ BetweenMarks (· ≠ .tab) ts x) := by
  intro p hpe u h0 h1
  rcases h with ⟨rfl, hn⟩ | h
  · cases List.mem_singleton.mp hpe
    exact ⟨u, h0, h1, rfl, (hflat u).ge, .inr (betweenMarks_imp (fun t ht _ => hn t ht) (betweenMarks_full hp.full h0 h1))⟩
  · obtain ⟨a, b, r, rfl⟩ := full_cons_cons hp.full
    obtain ⟨x, k1, k2, k3, k4⟩ := tabPath_low hflat hz r a b es hp.increasing hp.alternates h p hpe u h0 h1
    obtain ⟨x0, x1⟩ := betweenMarks_range hp.increasing hp.full k2
    exact ⟨x, x0, x1, k1, k3, k4⟩

theorem tabbedEdge_high {ze z : ℚ} {e : Edge} (hflat : ∀ t, (e.travel t).z = ze) (hz : ze ≤ z) {ts : List (ℚ × Transition)}
    (hp : ProperTransitions ts) {es : List Edge} (h : TabbedEdge z e ts es) {x : ℚ} (h0 : 0 ≤ x) (h1 : x ≤ 1) :
    (∃ p ∈ es, ∃ u, 0 ≤ u ∧ u ≤ 1 ∧ (p.travel u).xy = (e.travel x).xy ∧ (p.travel u).z ≤ z) ∧
    (BetweenMarks (· ≠ .tab) ts x → ∃ p ∈ es, ∃ u, 0 ≤ u ∧ u ≤ 1 ∧ (p.travel u).xy = (e.travel x).xy ∧ (p.travel u).z = ze) := by
  rcases h with ⟨rfl, hn⟩ | h
  · exact ⟨⟨e, by simp, x, h0, h1, rfl, (hflat x).le.trans hz⟩, fun _ => ⟨e, by simp, x, h0, h1, rfl, hflat x⟩⟩
  · have hb := betweenMarks_full hp.full h0 h1
    obtain ⟨a, b, r, rfl⟩ := full_cons_cons hp.full
    constructor
    · obtain ⟨t, -, p, hpe, u, u0, u1, k1, k2⟩ := tabPath_high hflat r a b es hp.increasing h x hb
      refine ⟨p, hpe, u, u0, u1, k1, ?_⟩
      rw [k2]
      split
      · exact le_rfl
      · exact hz
    · intro hb
      obtain ⟨t, ht, p, hpe, u, u0, u1, k1, k2⟩ := tabPath_high hflat r a b es hp.increasing h x hb
      exact ⟨p, hpe, u, u0, u1, k1, by rw [k2, if_neg ht]⟩

/-- Every point of `w` is at most `s` below a point of `w'`. -/
def BelowBy (s : ℚ) (w' w : List Edge) : Prop := ∀ e ∈ w, ∀ u, 0 ≤ u → u ≤ 1 →
  ∃ e' ∈ w', ∃ v, 0 ≤ v ∧ v ≤ 1 ∧ (e'.travel v).xy = (e.travel u).xy ∧ (e'.travel v).z ≤ (e.travel u).z + s

theorem belowBy_same {s : ℚ} {a a' b b' : List Edge} (ha : SameCurves a a') (hb : SameCurves b b') (h : BelowBy s a b) : BelowBy s a' b' := by
  intro e he u h0 h1
  obtain ⟨x, hx, i, rfl⟩ := forall2_right hb he
  obtain ⟨y, hy, v, k⟩ := h x hx u h0 h1
  obtain ⟨y', hy', j, rfl⟩ := forall2_left ha hy
  exact ⟨_, hy', v, k⟩

theorem belowBy_blocks {s : ℚ} {R : Edge → Edge → Prop} {A B : Edge × List (ℚ × Transition) → List Edge → Prop} {w w' : List Edge}
    (hR : List.Forall₂ R w w') : ∀ {T : List (List (ℚ × Transition))} {bs bs' : List (List Edge)},
    (∀ e e' ts b b', ts ∈ T → R e e' → A (e, ts) b → B (e', ts) b' → BelowBy s b' b) →
    List.Forall₂ A (w.zip T) bs → List.Forall₂ B (w'.zip T) bs' → BelowBy s bs'.flatten bs.flatten := by
  induction hR with
  | nil =>
    intro T bs bs' _ h1 h2
    cases h1
    rintro e ⟨⟩
  | cons hr hR ih =>
    intro T bs bs' h h1 h2
    cases T with
    | nil =>
      cases h1
      rintro e ⟨⟩
    | cons ts T =>
      rw [List.zip_cons_cons] at h1 h2
      cases h1 with
      | cons a1 a2 =>
      cases h2 with
      | cons b1 b2 =>
      intro e he u h0 h1
      rw [List.flatten_cons] at he
      rcases List.mem_append.mp he with he | he
      · obtain ⟨e', he', k⟩ := h _ _ ts _ _ (by simp) hr a1 b1 e he u h0 h1
        exact ⟨e', by rw [List.flatten_cons]; exact List.mem_append_left _ he', k⟩
      · obtain ⟨e', he', k⟩ := ih (fun e e' ts b b' ht => h e e' ts b b' (List.mem_cons_of_mem _ ht)) a2 b2 e he u h0 h1
        exact ⟨e', by rw [List.flatten_cons]; exact List.mem_append_right _ he', k⟩

/-- Two consecutive passes. -/
theorem pass_below {cad : Cad} (hb : BoxMoves cad) {base w w' p p' : List Edge} {s d z : ℚ} {T : List (List (ℚ × Transition))}
    {M : List Edge → List (List (ℚ × Transition)) → Prop} (hs : 0 < s) (hne : base ≠ [])
    (hflat : ∀ e ∈ base, FlatEdge (cad.zmin base) e) (hT : ∀ v tss, M v tss → tss = T) (hproper : ∀ ts ∈ T, ProperTransitions ts)
    (h : RaisedBy d base w) (h' : RaisedBy (d + s) base w') (hp : TabbedPass cad z M w p) (hp' : TabbedPass cad z M w' p') : BelowBy s p' p := by
  have hz := hb d base w hne h
  have hz' := hb (d + s) base w' hne h'
  have hR : List.Forall₂ (fun e e' : Edge => ∀ t, (e.travel t).z = cad.zmin base + d ∧ e'.travel t = (e.travel t).up s) w w' := by
    refine (forall₂_trans (List.Forall₂.flip h) h').imp ?_
    rintro e e' ⟨x, hx, k1, k2⟩ t
    have k1 : RaisedEdge d x e := k1
    have := edgeAt_travel (hflat x hx).flat t
    rw [k1.travel, k2.travel]
    simp only [Vec.up, this, add_assoc, and_self]
  have hplain : ∀ e' ∈ w', ∀ t, (e'.travel t).z = cad.zmin base + d + s := by
    intro e' he' t
    obtain ⟨e, -, k⟩ := forall2_right hR he'
    rw [(k t).2, Vec.up, (k t).1]
  rcases hp with ⟨hlow, rfl⟩ | ⟨hlow, tss, hm, ⟨hlen, blocks, hbl, hsame⟩, -⟩
  · rcases hp' with ⟨-, rfl⟩ | ⟨hlow', -⟩
    · intro e he u h0 h1
      obtain ⟨e', he', k⟩ := forall2_left hR he
      exact ⟨e', he', u, h0, h1, by rw [(k u).2]; rfl, by rw [(k u).2]; exact le_rfl⟩
    · exfalso
      rw [hz] at hlow
      rw [hz'] at hlow'
      linarith
  · cases hT _ _ hm
    have hze : cad.zmin base + d < z := hz ▸ hlow
    rcases hp' with ⟨hlow', hpw⟩ | ⟨hlow', tss', hm', ⟨hlen', blocks', hbl', hsame'⟩, -⟩
    · have hlen' : T.length = w'.length := by rw [hlen]; exact hR.length_eq
      have hb' : List.Forall₂ (fun (p : Edge × List (ℚ × Transition)) b => b = [p.1]) (w'.zip T) (w'.map (fun e => [e])) := by
        clear hbl hsame hm hproper hT
        have key : ∀ (l : List Edge) (T : List (List (ℚ × Transition))), T.length = l.length →
            List.Forall₂ (fun (p : Edge × List (ℚ × Transition)) b => b = [p.1]) (l.zip T) (l.map (fun e => [e])) := by
          intro l
          induction l with
          | nil => intro T _; simp
          | cons e l ih =>
            intro T hT
            obtain ⟨ts, T, rfl⟩ : ∃ a b, T = a :: b := List.exists_cons_of_ne_nil (by rintro rfl; cases hT)
            exact .cons rfl (ih T (by simpa using hT))
        exact key w' T hlen'
      have := belowBy_blocks (s := s) hR (fun e e' ts b b' hts hr ha hb' => ?_) hbl hb'
      · have hfl : (w'.map (fun e => [e])).flatten = w' := by
          rw [← List.flatMap_def, List.flatMap_singleton']
        rw [hfl, ← hpw] at this
        exact belowBy_same (List.forall₂_same.mpr (fun e _ => ⟨e.id, rfl⟩)) hsame this
      · intro q hq u h0 h1
        obtain ⟨x, x0, x1, k1, k2, -⟩ := tabbedEdge_low (fun t => (hr t).1) hze.le (hproper ts hts) ha q hq u h0 h1
        cases hb'
        refine ⟨e', by simp, x, x0, x1, ?_, ?_⟩
        · rw [(hr x).2, k1]; rfl
        · rw [(hr x).2, Vec.up, (hr x).1]
          linarith
    · cases hT _ _ hm'
      have hze' : cad.zmin base + d + s < z := by rw [hz'] at hlow'; linarith
      refine belowBy_same hsame' hsame (belowBy_blocks (s := s) hR (fun e e' ts b b' hts hr ha hb' => ?_) hbl hbl')
      intro q hq u h0 h1
      have hfl : ∀ t, (e'.travel t).z = cad.zmin base + d + s := fun t => by rw [(hr t).2, Vec.up, (hr t).1]
      obtain ⟨x, x0, x1, k1, k2, k3⟩ := tabbedEdge_low (fun t => (hr t).1) hze.le (hproper ts hts) ha q hq u h0 h1
      obtain ⟨g1, g2⟩ := tabbedEdge_high hfl hze'.le (hproper ts hts) hb' x0 x1
      have hxy : (e'.travel x).xy = (q.travel u).xy := by rw [(hr x).2, k1]; rfl
      rcases k3 with k3 | k3
      · obtain ⟨q', hq', v, v0, v1, c1, c2⟩ := g1
        exact ⟨q', hq', v, v0, v1, c1.trans hxy, by linarith⟩
      · obtain ⟨q', hq', v, v0, v1, c1, c2⟩ := g2 k3
        exact ⟨q', hq', v, v0, v1, c1.trans hxy, by rw [c2]; linarith⟩

/-- All passes of a contour. -/
theorem passes_down {cad : Cad} (hb : BoxMoves cad) {base : List Edge} {layers passes : List (List Edge)} {s z : ℚ}
    {T : List (List (ℚ × Transition))} {M : List Edge → List (List (ℚ × Transition)) → Prop} (hs : 0 < s) (hne : base ≠ [])
    (hflat : ∀ e ∈ base, FlatEdge (cad.zmin base) e) (hT : ∀ v tss, M v tss → tss = T) (hproper : ∀ ts ∈ T, ProperTransitions ts)
    (hl : Passes cad s base layers) (hp : List.Forall₂ (TabbedPass cad z M) layers passes) : PassesDown (-1 / 1000) s passes := by
  obtain ⟨n, -, hr, -, hfirst, -⟩ := hl
  have hF := forall₂_trans hr hp
  have hchain : ∀ (n : ℕ) {ps : List (List Edge)},
      List.Forall₂ (fun (k : ℕ) p => ∃ l ∈ layers, RaisedBy (k * s) base l ∧ TabbedPass cad z M l p) (List.range (n + 1)).reverse ps →
      List.IsChain (BelowBy s) ps := by
    intro n
    induction n with
    | zero =>
      intro ps h
      simp only [zero_add, List.range_one, List.reverse_singleton] at h
      cases h with
      | cons h1 h2 => cases h2; exact List.isChain_singleton _
    | succ n ih =>
      intro ps h
      rw [List.range_succ, List.reverse_append, List.reverse_singleton, List.singleton_append] at h
      cases h with
      | cons h1 h2 =>
        have hc := ih h2
        rw [List.range_succ, List.reverse_append, List.reverse_singleton, List.singleton_append] at h2
        cases h2 with
        | cons h3 h4 =>
          refine List.isChain_cons_cons.mpr ⟨?_, hc⟩
          obtain ⟨l', -, r', t'⟩ := h1
          obtain ⟨l, -, r, t⟩ := h3
          refine pass_below hb (d := n * s) hs hne hflat hT hproper r ?_ t t'
          have : ((n + 1 : ℕ) : ℚ) * s = n * s + s := by push_cast; ring
          rwa [this] at r'
  have hc := hchain n hF
  intro pre w post he e hew u h0 h1
  rcases List.eq_nil_or_concat pre with rfl | ⟨pre', w', rfl⟩
  · left
    rw [List.nil_append] at he
    subst he
    cases hp with
    | @cons l _ ls _ hp1 hp2 =>
      have hlz := hfirst l rfl
      obtain ⟨k, -, hrl⟩ := forall2_right hr (List.mem_cons_self : l ∈ l :: ls)
      have hzl := hb _ base l hne hrl
      have hfl : ∀ x ∈ l, ∀ t, (x.travel t).z = cad.zmin l := by
        intro x hx t
        obtain ⟨y, hy, ky⟩ := forall2_right hrl hx
        rw [ky.travel, hzl, edgeAt_travel (hflat y hy).flat t]
      rcases hp1 with ⟨-, rfl⟩ | ⟨hlow, tss, hm, ⟨hlen, blocks, hbl, hsame⟩, -⟩
      · rw [hfl e hew]; linarith
      · cases hT _ _ hm
        obtain ⟨q, hq, i, rfl⟩ := forall2_right hsame hew
        obtain ⟨b, hb', hqb⟩ := List.mem_flatten.mp hq
        obtain ⟨⟨x, ts⟩, hxt, hx⟩ := forall2_right hbl hb'
        obtain ⟨hx1, hx2⟩ := List.of_mem_zip hxt
        obtain ⟨-, -, -, -, hlo, -⟩ := tabbedEdge_low (hfl x hx1) hlow.le (hproper ts hx2) hx q hqb u h0 h1
        change _ ≤ (q.travel u).z + s
        linarith
  · right
    subst he
    rw [List.concat_eq_append, List.append_assoc, List.singleton_append] at hc
    have := (List.isChain_append.mp hc).2.1
    obtain ⟨e', he', k⟩ := (List.isChain_cons_cons.mp this).1 e hew u h0 h1
    exact ⟨w', by simp, e', he', k⟩

/-! ### The transitions are the same in all passes -/

/-- The places of the tabs do not depend on the height of the wire. -/
theorem transitions_up (tabs : Tabs) (L dz : ℚ) (b : List Edge) : tabs.transitions L (b.map (Edge.up dz)) = tabs.transitions L b := by
  cases tabs with
  | none =>
    simp only [Tabs.transitions, List.map_map]
    rfl
  | edge t =>
    simp only [Tabs.transitions, mapE_map]
    rfl
  | wire t =>
    simp only [Tabs.transitions, List.map_map]
    rfl

/-- All raised copies of a flat contour are tabbed with the same transitions. -/
theorem tabsFit_same {cad : Cad} (hA : Assembles cad) (hb : BoxMoves cad) {j : Job} {b : List Edge} {tabs : Tabs}
    {M : List Edge → List (List (ℚ × Transition)) → Prop} {T : List (List (ℚ × Transition))} (hf : FlatContour cad j tabs.height b)
    (ht : ∀ dz, tabs.transitions (cad.wireLength (b.map (Edge.up dz))) (b.map (Edge.up dz)) = .ok T) (hlen : T.length = b.length)
    (hp : ∀ ts ∈ T, ProperTransitions ts) (hm : TabsMeet T) (hM : ∀ dz, M (b.map (Edge.up dz)) T) :
    TabsFit cad j tabs (fun w tss => M w tss ∧ tabs.transitions (cad.wireLength b) b = .ok tss) b := by
  refine ⟨hf.ok.nonempty, hf.low, hf.top, fun dz => ?_⟩
  have hok := wireOK_up hf.ok dz
  have hch := chained_up hf.chained dz
  have hflat : ∀ e ∈ b.map (Edge.up dz), FlatEdge (cad.zmin (b.map (Edge.up dz))) e := by
    intro e he
    obtain ⟨x, hx, rfl⟩ := List.mem_map.mp he
    rw [zmin_up hb hf.ok.nonempty]
    exact flatEdge_up (hf.flat x hx)
  have h0 := ht 0
  rw [map_up_zero] at h0
  rcases le_or_gt (cad.zmin b + tabs.height) (cad.zmin (b.map (Edge.up dz))) with hz | hz
  · exact ⟨_, C51_above hz, .inl ⟨hz, rfl⟩, hok, hch, fun e he => edgeEnds_of_at (edgeAt_mono (fun _ h => .inl h) (hflat e he).flat)⟩
  · obtain ⟨w', g1, g2, g3, -, g5⟩ := C51_tabs_partial hA hz hok.nonempty rfl hflat hch (ht dz) (by rw [hlen, List.length_map]) hp hm
    obtain ⟨g8, g9⟩ := tabbedWire_ok hok hflat (fun ts hts => (hp ts hts).full) g2 g5
    exact ⟨w', g1, .inr ⟨hz, T, ⟨hM dz, h0⟩, g2, g3⟩, g8, g3, g9⟩

/-- The transitions of tabs along edges. -/
theorem edge_transitions {w : List Edge} (hlen : ∀ e ∈ w, 0 < e.length) {spacing width height : ℚ} {only : Option Geom} {t : EdgeTabs}
    (hnew : EdgeTabs.new spacing width height only = .ok t) (hw : 0 < width) (hs : 3 * width < 2 * spacing) :
    ∃ T, (∀ L, Tabs.transitions (.edge t) L w = .ok T) ∧ T.length = w.length ∧ (∀ ts ∈ T, ProperTransitions ts) ∧ TabsMeet T ∧
      EdgeMarks t w T := by
  have hedge : ∀ e ∈ w, ∃ ds, t.edgeDs e = .ok ds ∧ ProperTransitions (edgeTransitions ds) := by
    intro e he
    by_cases ho : only = none ∨ only = some e.geom
    · obtain ⟨ds, h1, h2, -, -⟩ := C49_transitions_partial hnew hw (hlen e he) ho
      obtain ⟨ds', h1', h3⟩ := C49_wide_spacing hnew hw hs (hlen e he) ho
      rw [h1] at h1'
      cases h1'
      exact ⟨ds, h1, h3, h2, (edgeTransitions_alternates ds).1⟩
    · push Not at ho
      obtain ⟨g, hg⟩ := Option.ne_none_iff_exists'.mp ho.1
      have hto : t.only = only := by
        unfold EdgeTabs.new at hnew
        split at hnew <;> cases hnew
        rfl
      refine ⟨[], C49_other_kinds (g := g) (by rw [hto, hg]) (by rintro rfl; exact ho.2 hg), ?_, ⟨rfl, rfl⟩, trivial⟩
      simp [edgeTransitions, Increasing]
  obtain ⟨dss, hd⟩ := mapE_total (f := t.edgeDs) (as := w) (fun e he => let ⟨ds, h, _⟩ := hedge e he; ⟨ds, h⟩)
  have hd2 := mapE_ok.mp hd
  refine ⟨dss.map edgeTransitions, fun L => by simp only [Tabs.transitions, hd, ok_bind], ?_, ?_, ?_, ?_⟩
  · rw [List.length_map]; exact hd2.length_eq.symm
  · intro ts hts
    obtain ⟨ds, hds, rfl⟩ := List.mem_map.mp hts
    obtain ⟨e, he, h⟩ := mapE_mem hd hds
    obtain ⟨ds', h', hp⟩ := hedge e he
    rw [h] at h'
    cases h'
    exact hp
  · have hno : ∀ ts ∈ dss.map edgeTransitions, ¬ StartsTab ts ∧ ¬ EndsTab ts := by
      intro ts hts
      obtain ⟨ds, -, rfl⟩ := List.mem_map.mp hts
      exact (edgeTransitions_alternates ds).2
    constructor
    · rw [List.isChain_iff_getElem]
      intro i hi
      exact iff_of_false (hno _ (List.getElem_mem _)).2 (hno _ (List.getElem_mem _)).1
    · intro a b ha hb
      exact iff_of_false (hno b (List.mem_of_getLast? hb)).2 (hno a (List.mem_of_head? ha)).1
  · unfold EdgeMarks
    rw [List.forall₂_map_right_iff]
    exact hd2.imp (fun e ds h => ⟨ds, h, edgeTransitions_marked ds⟩)

/-- What the tabs of a contour are, at all heights. -/
def SameTabs (cad : Cad) (tabs : Tabs) (M : List Edge → List (List (ℚ × Transition)) → Prop) (b : List Edge) : Prop :=
  ∃ T, (∀ dz, tabs.transitions (cad.wireLength (b.map (Edge.up dz))) (b.map (Edge.up dz)) = .ok T) ∧ T.length = b.length ∧
    (∀ ts ∈ T, ProperTransitions ts) ∧ TabsMeet T ∧ ∀ dz, M (b.map (Edge.up dz)) T

theorem sameTabs_edge {cad : Cad} {b : List Edge} (hlen : ∀ e ∈ b, 0 < e.length) {spacing width height : ℚ} {only : Option Geom}
    {t : EdgeTabs} (hnew : EdgeTabs.new spacing width height only = .ok t) (hw : 0 < width) (hs : 3 * width < 2 * spacing) :
    SameTabs cad (.edge t) (EdgeMarks t) b := by
  obtain ⟨T, h1, h2, h3, h4, h5⟩ := edge_transitions hlen hnew hw hs
  refine ⟨T, fun dz => by rw [transitions_up]; exact h1 _, h2, h3, h4, fun dz => ?_⟩
  unfold EdgeMarks
  rw [List.forall₂_map_left_iff]
  exact h5

theorem sameTabs_wire {cad : Cad} {b : List Edge} (hne : b ≠ []) (hlen : ∀ e ∈ b, 0 < e.length) {t : WireTabs} {n : ℕ}
    (hn : 0 < n) (hc : t.count = n) (hw : 0 < t.width) (hz : ZonesFit cad n t.width b) :
    SameTabs cad (.wire t) (WireMarks n t.width (b.map Edge.length).sum) b := by
  obtain ⟨T, h1, h2, h3, h4, h5⟩ := wireTabs_fit hne hlen hn hc hw rfl hz.fit hz.last hz.corner
  refine ⟨T, fun dz => by rw [transitions_up, hz.length]; exact h1, h2, h3, h4, fun dz => ?_⟩
  intro pre e post h
  obtain ⟨pre', rest, rfl, rfl, h'⟩ := List.map_eq_append_iff.mp h
  obtain ⟨e', post', rfl, rfl, rfl⟩ := List.map_eq_cons_iff.mp h'
  have := h5 pre' e' post' rfl
  rw [List.length_map, List.map_map]
  exact this

/-! ### The machine -/

theorem stepwise_of {cad : Cad} (hb : BoxMoves cad) {j : Job} {F r offset s : ℚ} {tabs : Tabs}
    {marks : List Edge → List Edge → List (List (ℚ × Transition)) → Prop} {wire : List Edge} {evs : List Event} (hs : 0 < s)
    (hr : j.toolRadius = some r)
    (hw : EachContour cad j offset wire (fun b => FlatContour cad j tabs.height b ∧ SameTabs cad tabs (marks b) b))
    (h : RunsTabProfile cad j.top F r offset (some s) tabs.height
      (fun b w tss => marks b w tss ∧ tabs.transitions (cad.wireLength b) b = .ok tss) wire evs) :
    RunsStepwise cad j.top F r offset s tabs.height marks wire evs := by
  obtain ⟨bases, ho, blocks, rfl, h⟩ := h
  refine ⟨bases, ho, blocks, rfl, forall₂_imp_mem h ?_⟩
  rintro base hbase block ⟨layers, passes, hp, ht, hrun⟩
  obtain ⟨hf, T, hT, -, hpr, -, -⟩ := hw r bases hr ho base hbase
  have hp' : Passes cad s base layers := by
    rcases hp with ⟨h0, -⟩ | ⟨s', hs', -, hp⟩
    · exact absurd h0 hs.ne'
    · cases hs'
      exact hp
  have h0 := hT 0
  rw [map_up_zero] at h0
  refine ⟨layers, passes, hp', ht.imp ?_, hrun, passes_down hb hs hf.ok.nonempty hf.flat ?_ hpr hp' ht⟩
  · rintro l p (h | ⟨h1, tss, h2, h3⟩)
    · exact .inl h
    · exact .inr ⟨h1, tss, h2.1, h3⟩
  · rintro v tss ⟨-, h⟩
    rw [h0] at h
    cases h
    rfl

theorem wires_stepwise {cad : Cad} (hA : Assembles cad) (hb : BoxMoves cad) {wires : List (List Edge)} {offset r s : ℚ} {tabs : Tabs}
    {tool : Option Tool} {j0 j1 j2 jf : Job} {before after : List Request} (m : Machine) (h0 : InitOK j0)
    (hn : ∀ v, j0.toolNumber = some v → NumOK v)
    (hok : ChainOK j0 (before ++ wireProfileRequest cad wires offset (some s) (some tabs) tool :: after))
    (h1 : j0.chain before = .ok j1) (h2 : (j1.call (wireProfileRequest cad wires offset (some s) (some tabs) tool)).2 = .ok j2)
    (h3 : j2.chain after = .ok jf) (hend : m.ended = false) (htool : ∀ n, j0.toolNumber = some n → m.tool = some n.value)
    (hk : KeepsBelow cad j0.top) (hs : 0 < s) (hsafe : 0 ≤ j0.opSafeHeight) (hv : ∀ w, NearestIsVertex cad w)
    {j : Job} (hj : (j1.updateTool tool).2 = j) (hr : j.toolRadius = some r)
    {marks : List Edge → List Edge → List (List (ℚ × Transition)) → Prop}
    (hw : ∀ w ∈ wires, EachContour cad j offset w (fun b => FlatContour cad j tabs.height b ∧ SameTabs cad tabs (marks b) b)) :
    ∃ t m' pre part post evss, jf.toGcode = .ok t ∧ runText m t = some (m', pre ++ part ++ post) ∧
      part.filter isMove = List.flatten evss ∧
      List.Forall₂ (RunsStepwise cad j0.top j.feed.value r offset s tabs.height marks) wires evss := by
  obtain ⟨t, m', pre, part, post, evss, a1, a2, a3, a4⟩ := wire_profile_tabs
    (marks := fun b w tss => marks b w tss ∧ tabs.transitions (cad.wireLength b) b = .ok tss) hb m h0 hn hok h1 h2 h3 hend htool hk
    (by rintro s' ⟨⟩; exact hs.le) hsafe hv hj hr
    (fun w hw' r bases g1 g2 b hb' => by
      obtain ⟨k, T, t1, t2, t3, t4, t5⟩ := hw w hw' r bases g1 g2 b hb'
      exact tabsFit_same hA hb k t1 t2 t3 t4 t5)
  have htop : j0.top = j.top := by
    subst hj
    have hbase : SameBase j0 (j1.updateTool tool).2 := updateTool_base (chain_base (show SameBase j0 j0 from rfl) h1) _
    rw [hbase]
  rw [htop] at a4 ⊢
  exact ⟨t, m', pre, part, post, evss, a1, a2, a3, forall₂_imp_mem a4 (fun w hwm evs h => stepwise_of hb hs hr (hw w hwm) h)⟩

theorem profile_stepwise {cad : Cad} (hA : Assembles cad) (hb : BoxMoves cad) {shapes : List Shape}
    {outerOffset innerOffset : Option ℚ} {r s : ℚ} {tabs : Tabs} {tool : Option Tool} {j0 j1 j2 jf : Job} {before after : List Request}
    (m : Machine) (h0 : InitOK j0) (hn : ∀ v, j0.toolNumber = some v → NumOK v)
    (hok : ChainOK j0 (before ++ profileRequest cad shapes outerOffset innerOffset (some s) (some tabs) tool :: after))
    (h1 : j0.chain before = .ok j1)
    (h2 : (j1.call (profileRequest cad shapes outerOffset innerOffset (some s) (some tabs) tool)).2 = .ok j2)
    (h3 : j2.chain after = .ok jf) (hend : m.ended = false) (htool : ∀ n, j0.toolNumber = some n → m.tool = some n.value)
    (hk : KeepsBelow cad j0.top) (hs : 0 < s) (hsafe : 0 ≤ j0.opSafeHeight) (hv : ∀ w, NearestIsVertex cad w)
    {j : Job} (hj : (j1.updateTool tool).2 = j) (hr : j.toolRadius = some r)
    {marks : List Edge → List Edge → List (List (ℚ × Transition)) → Prop}
    (hwo : ∀ o, outerOffset = some o → ∀ w ∈ outerWires shapes, EachContour cad j o w
      (fun b => FlatContour cad j tabs.height b ∧ SameTabs cad tabs (marks b) b))
    (hwi : ∀ o, innerOffset = some o → ∀ w ∈ innerWires shapes, EachContour cad j o w
      (fun b => FlatContour cad j tabs.height b ∧ SameTabs cad tabs (marks b) b)) :
    ∃ t m' pre part post inner outer, jf.toGcode = .ok t ∧ runText m t = some (m', pre ++ part ++ post) ∧
      part.filter isMove = List.flatten inner ++ List.flatten outer ∧
      RunAllStepwise cad j0.top j.feed.value r innerOffset s tabs.height marks (innerWires shapes) inner ∧
      RunAllStepwise cad j0.top j.feed.value r outerOffset s tabs.height marks (outerWires shapes) outer := by
  have hfit : ∀ {o w}, EachContour cad j o w (fun b => FlatContour cad j tabs.height b ∧ SameTabs cad tabs (marks b) b) →
      EachContour cad j o w (fun b => TabsFit cad j tabs
        (fun w tss => marks b w tss ∧ tabs.transitions (cad.wireLength b) b = .ok tss) b) := by
    intro o w h r bases g1 g2 b hb'
    obtain ⟨k, T, t1, t2, t3, t4, t5⟩ := h r bases g1 g2 b hb'
    exact tabsFit_same hA hb k t1 t2 t3 t4 t5
  obtain ⟨t, m', pre, part, post, inner, outer, a1, a2, a3, a4, a5⟩ := profile_tabs
    (marks := fun b w tss => marks b w tss ∧ tabs.transitions (cad.wireLength b) b = .ok tss) hb m h0 hn hok h1 h2 h3 hend htool hk
    (by rintro s' ⟨⟩; exact hs.le) hsafe hv hj hr (fun o ho w hw => hfit (hwo o ho w hw)) (fun o ho w hw => hfit (hwi o ho w hw))
  have htop : j0.top = j.top := by
    subst hj
    have hbase : SameBase j0 (j1.updateTool tool).2 := updateTool_base (chain_base (show SameBase j0 j0 from rfl) h1) _
    rw [hbase]
  rw [htop] at a4 a5 ⊢
  have hall : ∀ {offset : Option ℚ} {ws : List (List Edge)} {evss : List (List Event)},
      (∀ o, offset = some o → ∀ w ∈ ws, EachContour cad j o w (fun b => FlatContour cad j tabs.height b ∧ SameTabs cad tabs (marks b) b)) →
      RunsTabProfiles cad j.top j.feed.value r offset (some s) tabs.height
        (fun b w tss => marks b w tss ∧ tabs.transitions (cad.wireLength b) b = .ok tss) ws evss →
      RunAllStepwise cad j.top j.feed.value r offset s tabs.height marks ws evss := by
    intro offset ws evss hw h
    cases offset with
    | none => exact h
    | some o => exact forall₂_imp_mem h (fun w hwm evs h => stepwise_of hb hs hr (hw o rfl w hwm) h)
  exact ⟨t, m', pre, part, post, inner, outer, a1, a2, a3, hall hwi a4, hall hwo a5⟩

theorem edgeTabs_height {spacing width height : ℚ} {only : Option Geom} {tabs : EdgeTabs}
    (hnew : EdgeTabs.new spacing width height only = .ok tabs) : (Tabs.edge tabs).height = height := by
  unfold EdgeTabs.new at hnew
  split at hnew <;> cases hnew
  rfl

/-- C151 for `wire_profile` with tabs along the edges (as far as it holds: see `C151_violated`). -/
theorem C151_edge_tabs_partial {cad : Cad} (hA : Assembles cad) (hb : BoxMoves cad) {wires : List (List Edge)} {offset r s : ℚ}
    {spacing width height : ℚ} {only : Option Geom} {tabs : EdgeTabs}
    (hnew : EdgeTabs.new spacing width height only = .ok tabs) (hwidth : 0 < width) (hgap : 3 * width < 2 * spacing)
    {tool : Option Tool} {j0 j1 j2 jf : Job} {before after : List Request} (m : Machine) (h0 : InitOK j0)
    (hn : ∀ v, j0.toolNumber = some v → NumOK v)
    (hok : ChainOK j0 (before ++ wireProfileRequest cad wires offset (some s) (some (.edge tabs)) tool :: after))
    (h1 : j0.chain before = .ok j1)
    (h2 : (j1.call (wireProfileRequest cad wires offset (some s) (some (.edge tabs)) tool)).2 = .ok j2)
    (h3 : j2.chain after = .ok jf) (hend : m.ended = false) (htool : ∀ n, j0.toolNumber = some n → m.tool = some n.value)
    (hk : KeepsBelow cad j0.top) (hs : 0 < s) (hsafe : 0 ≤ j0.opSafeHeight) (hv : ∀ w, NearestIsVertex cad w)
    {j : Job} (hj : (j1.updateTool tool).2 = j) (hr : j.toolRadius = some r)
    (hw : ∀ w ∈ wires, EachContour cad j offset w (FlatContour cad j height)) :
    ∃ t m' pre part post evss, jf.toGcode = .ok t ∧ runText m t = some (m', pre ++ part ++ post) ∧
      part.filter isMove = List.flatten evss ∧
      List.Forall₂ (RunsStepwise cad j0.top j.feed.value r offset s height (fun _ => EdgeMarks tabs)) wires evss := by
  have hh := edgeTabs_height hnew
  subst hh
  exact wires_stepwise (marks := fun _ => EdgeMarks tabs) hA hb m h0 hn hok h1 h2 h3 hend htool hk hs hsafe hv hj hr
    (fun w hw' r bases g1 g2 b hb' => ⟨hw w hw' r bases g1 g2 b hb', sameTabs_edge (hw w hw' r bases g1 g2 b hb').length hnew hwidth hgap⟩)

/-- C151 for `profile` with tabs along the edges. -/
theorem C151_profile_edge_tabs_partial {cad : Cad} (hA : Assembles cad) (hb : BoxMoves cad) {shapes : List Shape}
    {outerOffset innerOffset : Option ℚ} {r s : ℚ} {spacing width height : ℚ} {only : Option Geom} {tabs : EdgeTabs}
    (hnew : EdgeTabs.new spacing width height only = .ok tabs) (hwidth : 0 < width) (hgap : 3 * width < 2 * spacing)
    {tool : Option Tool} {j0 j1 j2 jf : Job} {before after : List Request} (m : Machine)
    (h0 : InitOK j0) (hn : ∀ v, j0.toolNumber = some v → NumOK v)
    (hok : ChainOK j0 (before ++ profileRequest cad shapes outerOffset innerOffset (some s) (some (.edge tabs)) tool :: after))
    (h1 : j0.chain before = .ok j1)
    (h2 : (j1.call (profileRequest cad shapes outerOffset innerOffset (some s) (some (.edge tabs)) tool)).2 = .ok j2)
    (h3 : j2.chain after = .ok jf) (hend : m.ended = false) (htool : ∀ n, j0.toolNumber = some n → m.tool = some n.value)
    (hk : KeepsBelow cad j0.top) (hs : 0 < s) (hsafe : 0 ≤ j0.opSafeHeight) (hv : ∀ w, NearestIsVertex cad w)
    {j : Job} (hj : (j1.updateTool tool).2 = j) (hr : j.toolRadius = some r)
    (hwo : ∀ o, outerOffset = some o → ∀ w ∈ outerWires shapes, EachContour cad j o w (FlatContour cad j height))
    (hwi : ∀ o, innerOffset = some o → ∀ w ∈ innerWires shapes, EachContour cad j o w (FlatContour cad j height)) :
    ∃ t m' pre part post inner outer, jf.toGcode = .ok t ∧ runText m t = some (m', pre ++ part ++ post) ∧
      part.filter isMove = List.flatten inner ++ List.flatten outer ∧
      RunAllStepwise cad j0.top j.feed.value r innerOffset s height (fun _ => EdgeMarks tabs) (innerWires shapes) inner ∧
      RunAllStepwise cad j0.top j.feed.value r outerOffset s height (fun _ => EdgeMarks tabs) (outerWires shapes) outer := by
  have hh := edgeTabs_height hnew
  subst hh
  exact profile_stepwise (marks := fun _ => EdgeMarks tabs) hA hb m h0 hn hok h1 h2 h3 hend htool hk hs hsafe hv hj hr
    (fun o ho w hw' r bases g1 g2 b hb' => ⟨hwo o ho w hw' r bases g1 g2 b hb',
      sameTabs_edge (hwo o ho w hw' r bases g1 g2 b hb').length hnew hwidth hgap⟩)
    (fun o ho w hw' r bases g1 g2 b hb' => ⟨hwi o ho w hw' r bases g1 g2 b hb',
      sameTabs_edge (hwi o ho w hw' r bases g1 g2 b hb').length hnew hwidth hgap⟩)

/-- C151 for `wire_profile` with tabs around the contour. -/
theorem C151_wire_tabs_partial {cad : Cad} (hA : Assembles cad) (hb : BoxMoves cad) {wires : List (List Edge)} {offset r s : ℚ}
    {tabs : WireTabs} {n : ℕ} (hpos : 0 < n) (hcount : tabs.count = n) (hwidth : 0 < tabs.width)
    {tool : Option Tool} {j0 j1 j2 jf : Job} {before after : List Request} (m : Machine) (h0 : InitOK j0)
    (hn : ∀ v, j0.toolNumber = some v → NumOK v)
    (hok : ChainOK j0 (before ++ wireProfileRequest cad wires offset (some s) (some (.wire tabs)) tool :: after))
    (h1 : j0.chain before = .ok j1)
    (h2 : (j1.call (wireProfileRequest cad wires offset (some s) (some (.wire tabs)) tool)).2 = .ok j2)
    (h3 : j2.chain after = .ok jf) (hend : m.ended = false) (htool : ∀ n, j0.toolNumber = some n → m.tool = some n.value)
    (hk : KeepsBelow cad j0.top) (hs : 0 < s) (hsafe : 0 ≤ j0.opSafeHeight) (hv : ∀ w, NearestIsVertex cad w)
    {j : Job} (hj : (j1.updateTool tool).2 = j) (hr : j.toolRadius = some r)
    (hw : ∀ w ∈ wires, EachContour cad j offset w (fun b => FlatContour cad j tabs.height b ∧ ZonesFit cad n tabs.width b)) :
    ∃ t m' pre part post evss, jf.toGcode = .ok t ∧ runText m t = some (m', pre ++ part ++ post) ∧
      part.filter isMove = List.flatten evss ∧
      List.Forall₂ (RunsStepwise cad j0.top j.feed.value r offset s tabs.height
        (fun b => WireMarks n tabs.width (b.map Edge.length).sum)) wires evss :=
  wires_stepwise (marks := fun b => WireMarks n tabs.width (b.map Edge.length).sum) hA hb m h0 hn hok h1 h2 h3 hend htool hk hs hsafe
    hv hj hr (fun w hw' r bases g1 g2 b hb' => by
      obtain ⟨k1, k2⟩ := hw w hw' r bases g1 g2 b hb'
      exact ⟨k1, sameTabs_wire k1.ok.nonempty k1.length hpos hcount hwidth k2⟩)

/-- C151 for `profile` with tabs around the contour. -/
theorem C151_profile_wire_tabs_partial {cad : Cad} (hA : Assembles cad) (hb : BoxMoves cad) {shapes : List Shape}
    {outerOffset innerOffset : Option ℚ} {r s : ℚ} {tabs : WireTabs} {n : ℕ} (hpos : 0 < n) (hcount : tabs.count = n)
    (hwidth : 0 < tabs.width) {tool : Option Tool} {j0 j1 j2 jf : Job} {before after : List Request} (m : Machine)
    (h0 : InitOK j0) (hn : ∀ v, j0.toolNumber = some v → NumOK v)
    (hok : ChainOK j0 (before ++ profileRequest cad shapes outerOffset innerOffset (some s) (some (.wire tabs)) tool :: after))
    (h1 : j0.chain before = .ok j1)
    (h2 : (j1.call (profileRequest cad shapes outerOffset innerOffset (some s) (some (.wire tabs)) tool)).2 = .ok j2)
    (h3 : j2.chain after = .ok jf) (hend : m.ended = false) (htool : ∀ n, j0.toolNumber = some n → m.tool = some n.value)
    (hk : KeepsBelow cad j0.top) (hs : 0 < s) (hsafe : 0 ≤ j0.opSafeHeight) (hv : ∀ w, NearestIsVertex cad w)
    {j : Job} (hj : (j1.updateTool tool).2 = j) (hr : j.toolRadius = some r)
    (hwo : ∀ o, outerOffset = some o → ∀ w ∈ outerWires shapes, EachContour cad j o w
      (fun b => FlatContour cad j tabs.height b ∧ ZonesFit cad n tabs.width b))
    (hwi : ∀ o, innerOffset = some o → ∀ w ∈ innerWires shapes, EachContour cad j o w
      (fun b => FlatContour cad j tabs.height b ∧ ZonesFit cad n tabs.width b)) :
    ∃ t m' pre part post inner outer, jf.toGcode = .ok t ∧ runText m t = some (m', pre ++ part ++ post) ∧
      part.filter isMove = List.flatten inner ++ List.flatten outer ∧
      RunAllStepwise cad j0.top j.feed.value r innerOffset s tabs.height
        (fun b => WireMarks n tabs.width (b.map Edge.length).sum) (innerWires shapes) inner ∧
      RunAllStepwise cad j0.top j.feed.value r outerOffset s tabs.height
        (fun b => WireMarks n tabs.width (b.map Edge.length).sum) (outerWires shapes) outer := by
  have hfit : ∀ {o w}, EachContour cad j o w (fun b => FlatContour cad j tabs.height b ∧ ZonesFit cad n tabs.width b) →
      EachContour cad j o w (fun b => FlatContour cad j (Tabs.wire tabs).height b ∧
        SameTabs cad (.wire tabs) (WireMarks n tabs.width (b.map Edge.length).sum) b) := by
    intro o w h r bases g1 g2 b hb'
    obtain ⟨k1, k2⟩ := h r bases g1 g2 b hb'
    exact ⟨k1, sameTabs_wire k1.ok.nonempty k1.length hpos hcount hwidth k2⟩
  exact profile_stepwise (marks := fun b => WireMarks n tabs.width (b.map Edge.length).sum) hA hb m h0 hn hok h1 h2 h3 hend htool hk hs
    hsafe hv hj hr (fun o ho w hw => hfit (hwo o ho w hw)) (fun o ho w hw => hfit (hwi o ho w hw))

/-! ### Where it fails -/

/-- C151 is false: with the surface at world height -3 and a stepdown of 1 the passes nearest to the surface are left out (see
`C46_violated`); also with tabs the first feed move of the program goes down to depth 4. -/
theorem C151_violated : ∃ j2 t m' pre e post, Assembles strictCad ∧ BoxMoves strictCad ∧
    (lowJob.call (wireProfileRequest strictCad [lowSquare] 1 (some 1) (some (.edge ⟨3, 1, 1 / 2, none⟩)) none)).2 = .ok j2 ∧
    j2.toGcode = .ok t ∧ runText {} t = some (m', pre ++ e :: post) ∧ (∀ e' ∈ pre, isFeedMove e' = false) ∧ isFeedMove e = true ∧
    ∃ k tgt ctr, e.act = .move k tgt ctr ∧ tgt.z = some (-4) := by
  have hw : (match (wireProfileRequest strictCad [lowSquare] 1 (some 1) (some (.edge ⟨3, 1, 1 / 2, none⟩)) none).gen lowJob with
      | .ok cs => cs.all goodMove && deepFirst ((lowJob.addOperation "Wire Profile".toList (cs.map .motion)).intended {}).2
      | .error _ => false) = true := by decide +kernel
  obtain ⟨cs, hg, hr, hc⟩ := call_good (j := lowJob)
    (r := wireProfileRequest strictCad [lowSquare] 1 (some 1) (some (.edge ⟨3, 1, 1 / 2, none⟩)) none)
    (by decide +kernel) rfl (by unfold SafeName; decide) (by
      cases hg : (wireProfileRequest strictCad [lowSquare] 1 (some 1) (some (.edge ⟨3, 1, 1 / 2, none⟩)) none).gen lowJob with
      | error e => rw [hg] at hw; cases hw
      | ok cs => rw [hg] at hw; exact (Bool.and_eq_true _ _ ▸ hw).1)
  rw [hg] at hw
  have hd := (Bool.and_eq_true _ _ ▸ hw).2
  have h0 : InitOK lowJob := ⟨rfl, by unfold SafeName; decide, numOK_int _, by rintro v ⟨⟩⟩
  obtain ⟨t, ht, hrun⟩ := run_job {} _ (inv_reach (inv_init h0 (by rintro v ⟨⟩)) (.result _ .init hr hc)).ok rfl
  unfold deepFirst at hd
  split at hd
  · rename_i e hf
    obtain ⟨hfeed, pre, post, hev, hpre⟩ := List.find?_eq_some_iff_append.mp hf
    split at hd
    · rename_i k tgt ctr hact
      have hrun' := hrun.trans (congrArg (fun l => some (_, l)) hev)
      exact ⟨_, t, _, pre, e, post, strictCad_assembles, flatCad_boxMoves, hc, ht, hrun', fun e' he' => by simpa using hpre e' he', hfeed,
        k, tgt, ctr, hact, of_decide_eq_true hd⟩
    · cases hd
  · cases hd

/-! ### Examples of the conditions -/

/-- The hypotheses of `C151_edge_tabs_partial`: the square with two tabs on each side, in five passes of which three have tabs. -/
example : ∃ j2 t m' pre part post evss,
    (twoJob.call (wireProfileRequest strictCad [innerSquare] 1 (some (1 / 5)) (some (.edge ⟨3, 1, 1 / 2, none⟩)) none)).2 = .ok j2 ∧
    j2.toGcode = .ok t ∧ runText {} t = some (m', pre ++ part ++ post) ∧ part.filter isMove = List.flatten evss ∧
    List.Forall₂ (RunsStepwise strictCad Frame.xy 500 1 1 (1 / 5) (1 / 2) (fun _ => EdgeMarks ⟨3, 1, 1 / 2, none⟩)) [innerSquare] evss := by
  obtain ⟨cs, hg, hr, hc⟩ := call_good (j := twoJob)
    (r := wireProfileRequest strictCad [innerSquare] 1 (some (1 / 5)) (some (.edge ⟨3, 1, 1 / 2, none⟩)) none)
    (by decide +kernel) rfl (by unfold SafeName; decide) (by decide +kernel)
  obtain ⟨t, m', pre, part, post, evss, a1, a2, a3, a4⟩ := C151_edge_tabs_partial strictCad_assembles flatCad_boxMoves
    (wires := [innerSquare]) (offset := 1) (r := 1) (s := 1 / 5) (spacing := 3) (width := 1) (height := 1 / 2) (only := none)
    (by decide +kernel) (by norm_num) (by norm_num) (tool := none) (before := []) (after := []) {} twoJob_ok (by rintro v ⟨⟩)
    (show ChainOK twoJob [_] from ⟨hr, fun _ _ => trivial⟩) rfl hc rfl rfl (by rintro n ⟨⟩) flatCad_keepsBelow
    (by norm_num) (by decide +kernel) (fun _ _ _ h => (by cases h)) rfl (by decide +kernel)
    (innerSquare_contours innerSquare_flat)
  rw [show (twoJob.updateTool none).2.feed.value = 500 from by decide +kernel] at a4
  exact ⟨_, t, m', pre, part, post, evss, hc, a1, a2, a3, a4⟩

/-- The hypotheses of `C151_wire_tabs_partial`: the square with three tabs around it. -/
example : ∃ j2 t m' pre part post evss,
    (twoJob.call (wireProfileRequest strictCad [innerSquare] 1 (some (1 / 5)) (some (.wire ⟨3, 1, 1 / 2⟩)) none)).2 = .ok j2 ∧
    j2.toGcode = .ok t ∧ runText {} t = some (m', pre ++ part ++ post) ∧ part.filter isMove = List.flatten evss ∧
    List.Forall₂ (RunsStepwise strictCad Frame.xy 500 1 1 (1 / 5) (1 / 2) (fun b => WireMarks 3 1 (b.map Edge.length).sum)) [innerSquare] evss := by
  obtain ⟨cs, hg, hr, hc⟩ := call_good (j := twoJob)
    (r := wireProfileRequest strictCad [innerSquare] 1 (some (1 / 5)) (some (.wire ⟨3, 1, 1 / 2⟩)) none)
    (by decide +kernel) rfl (by unfold SafeName; decide) (by decide +kernel)
  obtain ⟨t, m', pre, part, post, evss, a1, a2, a3, a4⟩ := C151_wire_tabs_partial strictCad_assembles flatCad_boxMoves
    (wires := [innerSquare]) (offset := 1) (r := 1) (s := 1 / 5) (tabs := ⟨3, 1, 1 / 2⟩) (n := 3)
    (by norm_num) rfl (by norm_num) (tool := none) (before := []) (after := []) {} twoJob_ok (by rintro v ⟨⟩)
    (show ChainOK twoJob [_] from ⟨hr, fun _ _ => trivial⟩) rfl hc rfl rfl (by rintro n ⟨⟩) flatCad_keepsBelow
    (by norm_num) (by decide +kernel) (fun _ _ _ h => (by cases h)) rfl (by decide +kernel)
    (innerSquare_contours ⟨innerSquare_flat, innerSquare_zones⟩)
  rw [show (twoJob.updateTool none).2.feed.value = 500 from by decide +kernel] at a4
  exact ⟨_, t, m', pre, part, post, evss, hc, a1, a2, a3, a4⟩

/-- The hypotheses of `C151_profile_edge_tabs_partial`: a face bounded by the square, with two tabs on each side. -/
example : ∃ j2 t m' pre part post evss,
    (twoJob.call (profileRequest strictCad [.face innerSquare []] (some 1) none (some (1 / 5)) (some (.edge ⟨3, 1, 1 / 2, none⟩)) none)).2 = .ok j2 ∧
    j2.toGcode = .ok t ∧ runText {} t = some (m', pre ++ part ++ post) ∧ part.filter isMove = List.flatten evss ∧
    RunAllStepwise strictCad Frame.xy 500 1 (some 1) (1 / 5) (1 / 2) (fun _ => EdgeMarks ⟨3, 1, 1 / 2, none⟩) [innerSquare] evss := by
  obtain ⟨cs, hg, hr, hc⟩ := call_good (j := twoJob)
    (r := profileRequest strictCad [.face innerSquare []] (some 1) none (some (1 / 5)) (some (.edge ⟨3, 1, 1 / 2, none⟩)) none)
    (by decide +kernel) rfl (by unfold SafeName; decide) (by decide +kernel)
  obtain ⟨t, m', pre, part, post, inner, outer, a1, a2, a3, a4, a5⟩ := C151_profile_edge_tabs_partial strictCad_assembles flatCad_boxMoves
    (shapes := [.face innerSquare []]) (outerOffset := some 1) (innerOffset := none) (r := 1) (s := 1 / 5) (spacing := 3) (width := 1) (height := 1 / 2) (only := none)
    (by decide +kernel) (by norm_num) (by norm_num) (tool := none) (before := []) (after := []) {} twoJob_ok (by rintro v ⟨⟩)
    (show ChainOK twoJob [_] from ⟨hr, fun _ _ => trivial⟩) rfl hc rfl rfl (by rintro n ⟨⟩) flatCad_keepsBelow
    (by norm_num) (by decide +kernel) (fun _ _ _ h => (by cases h)) rfl (by decide +kernel)
    (by
      rintro o ⟨⟩ w hw
      exact innerSquare_contours innerSquare_flat w hw)
    (by rintro o ⟨⟩)
  cases (show inner = [] from a4)
  rw [show (twoJob.updateTool none).2.feed.value = 500 from by decide +kernel] at a5
  exact ⟨_, t, m', pre, part, post, outer, hc, a1, a2, a3, a5⟩

/-- The hypotheses of `C151_profile_wire_tabs_partial`: the face with three tabs around it. -/
example : ∃ j2 t m' pre part post evss,
    (twoJob.call (profileRequest strictCad [.face innerSquare []] (some 1) none (some (1 / 5)) (some (.wire ⟨3, 1, 1 / 2⟩)) none)).2 = .ok j2 ∧
    j2.toGcode = .ok t ∧ runText {} t = some (m', pre ++ part ++ post) ∧ part.filter isMove = List.flatten evss ∧
    RunAllStepwise strictCad Frame.xy 500 1 (some 1) (1 / 5) (1 / 2) (fun b => WireMarks 3 1 (b.map Edge.length).sum) [innerSquare] evss := by
  obtain ⟨cs, hg, hr, hc⟩ := call_good (j := twoJob)
    (r := profileRequest strictCad [.face innerSquare []] (some 1) none (some (1 / 5)) (some (.wire ⟨3, 1, 1 / 2⟩)) none)
    (by decide +kernel) rfl (by unfold SafeName; decide) (by decide +kernel)
  obtain ⟨t, m', pre, part, post, inner, outer, a1, a2, a3, a4, a5⟩ := C151_profile_wire_tabs_partial strictCad_assembles flatCad_boxMoves
    (shapes := [.face innerSquare []]) (outerOffset := some 1) (innerOffset := none) (r := 1) (s := 1 / 5) (tabs := ⟨3, 1, 1 / 2⟩) (n := 3)
    (by norm_num) rfl (by norm_num) (tool := none) (before := []) (after := []) {} twoJob_ok (by rintro v ⟨⟩)
    (show ChainOK twoJob [_] from ⟨hr, fun _ _ => trivial⟩) rfl hc rfl rfl (by rintro n ⟨⟩) flatCad_keepsBelow
    (by norm_num) (by decide +kernel) (fun _ _ _ h => (by cases h)) rfl (by decide +kernel)
    (by
      rintro o ⟨⟩ w hw
      exact innerSquare_contours ⟨innerSquare_flat, innerSquare_zones⟩ w hw)
    (by rintro o ⟨⟩)
  cases (show inner = [] from a4)
  rw [show (twoJob.updateTool none).2.feed.value = 500 from by decide +kernel] at a5
  exact ⟨_, t, m', pre, part, post, outer, hc, a1, a2, a3, a5⟩

end CQ
