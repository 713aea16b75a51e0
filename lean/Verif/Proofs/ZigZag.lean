import Verif.Spec.ZigZag
import Verif.Model.ZigZag
import Verif.Proofs.Except
import Verif.Proofs.Geometry
import Verif.Props.LinkedPolygon

/-! # Lemmas: zigzag routing and linking -/

namespace CQ

theorem foldE_inv {α β : Type} {f : β → α → Except Err β} (I : β → Prop) :
    ∀ {l : List α} {b b' : β}, (∀ b a b', a ∈ l → I b → f b a = .ok b' → I b') → foldE f b l = .ok b' → I b → I b' := by
  intro l
  induction l with
  | nil => intro b b' _ h hb; cases h; exact hb
  | cons a as ih =>
    intro b b' hs h hb
    unfold foldE at h
    obtain ⟨b1, h1, h2⟩ := bind_ok.mp h
    exact ih (fun b c b' hc => hs b c b' (List.mem_cons_of_mem _ hc)) h2 (hs b a b1 List.mem_cons_self hb h1)

theorem scanpoints_eq (ss : List (Pt × Pt)) : scanpoints ss = lineEnds ss := rfl

theorem lineEnds_perm {a b : List (Pt × Pt)} (h : a.Perm b) : (lineEnds a).Perm (lineEnds b) :=
  h.flatMap_right _

theorem lookup_of_nodup {β : Type} : ∀ {d : List (Pt × β)} {p : Pt} {b : β}, (d.map Prod.fst).Nodup → (p, b) ∈ d →
    d.lookup p = some b := by
  intro d
  induction d with
  | nil => intro p b _ h; cases h
  | cons x xs ih =>
    intro p b hn hm
    rw [List.map_cons, List.nodup_cons] at hn
    rcases List.mem_cons.mp hm with rfl | hm'
    · simp [List.lookup]
    · have hne : p ≠ x.1 := by
        rintro rfl
        exact hn.1 (List.mem_map.mpr ⟨_, hm', rfl⟩)
      obtain ⟨x1, x2⟩ := x
      have hb : (p == x1) = false := by simpa using hne
      simp only [List.lookup, hb]
      exact ih hn.2 hm'

theorem scanlineMap_keys (ss : List (Pt × Pt)) : ((scanlineMap ss).map Prod.fst).Perm (lineEnds ss) := by
  induction ss with
  | nil => exact .refl _
  | cons s ss ih =>
    simp only [scanlineMap, List.map_append, List.map_cons, List.map_nil, lineEnds, List.flatMap_cons]
    refine List.perm_append_comm.trans ?_
    exact (List.Perm.swap _ _ _).append ih

theorem scanlineMap_mem {ss : List (Pt × Pt)} {l : Pt × Pt} (h : l ∈ ss) :
    (l.1, l) ∈ scanlineMap ss ∧ (l.2, l) ∈ scanlineMap ss := by
  induction ss with
  | nil => cases h
  | cons s ss ih =>
    simp only [scanlineMap, List.mem_append]
    rcases List.mem_cons.mp h with rfl | h
    · exact ⟨.inr (by simp), .inr (by simp)⟩
    · exact ⟨.inl (ih h).1, .inl (ih h).2⟩

theorem scanlineMap_lookup {ss : List (Pt × Pt)} (hn : (lineEnds ss).Nodup) {l : Pt × Pt} (h : l ∈ ss) :
    (scanlineMap ss).lookup l.1 = some l ∧ (scanlineMap ss).lookup l.2 = some l := by
  have hk := (scanlineMap_keys ss).nodup_iff.mpr hn
  exact ⟨lookup_of_nodup hk (scanlineMap_mem h).1, lookup_of_nodup hk (scanlineMap_mem h).2⟩

theorem BoundaryLink.run {boundary targets : List Pt} {p : Pt} {run : List Pt} (h : BoundaryLink boundary targets p run) :
    BoundaryRun boundary p run := by
  obtain ⟨before, after, hb, h | h⟩ := h <;> obtain ⟨pre, q, rest, h1, h2, -, -⟩ := h
  · exact ⟨by simp [h1], before, after, rest, hb, .inl h2⟩
  · exact ⟨by simp [h1], before, after, rest, hb, .inr h2⟩

/-- The end of a line is one of its two ends. -/
theorem mem_lineEnds {q : Pt} {ss : List (Pt × Pt)} : q ∈ lineEnds ss ↔ ∃ l ∈ ss, q = l.1 ∨ q = l.2 := by
  simp [lineEnds]

/-- The loop of the zigzag router with a single boundary. -/
theorem routeLoop_spec {owner : List (Pt × ℕ)} {lineMap : List (Pt × (Pt × Pt))} {P : List Pt} :
    ∀ (n : ℕ) (s : RouteState) (lp : LinkedPolygon), s.scanlines.length ≤ n → s.lps = [lp] → lp.polygon = P →
      lp.avail.Perm (s.cutPos :: lineEnds s.scanlines) → lp.avail.Nodup → (∀ q ∈ lp.avail, q ∈ P) →
      (∀ q ∈ lp.avail, owner.lookup q = some 0) →
      (∀ l ∈ s.scanlines, lineMap.lookup l.1 = some l ∧ lineMap.lookup l.2 = some l) → s.seqs = [] →
      ∃ lines rest, routeLoop owner lineMap n s = .ok [s.seq ++ rest] ∧ LinksAndCuts P s.cutPos lines rest ∧
        SameLines lines s.scanlines := by
  intro n
  induction n with
  | zero =>
    intro s lp hlen _ _ _ _ _ _ _ hseqs
    have : s.scanlines = [] := List.length_eq_zero_iff.mp (by omega)
    refine ⟨[], [], ?_, rfl, ⟨[], by rw [this], .nil⟩⟩
    unfold routeLoop
    simp [this, hseqs]
  | succ n ih =>
    intro s lp hlen hlps hP hav hnd hsub hown hmap hseqs
    by_cases hs : s.scanlines = []
    · refine ⟨[], [], ?_, rfl, ⟨[], by rw [hs], .nil⟩⟩
      unfold routeLoop
      simp [hs, hseqs]
    · have hcut : s.cutPos ∈ lp.avail := hav.mem_iff.mpr List.mem_cons_self
      have hne : lp.avail ≠ [s.cutPos] := by
        intro he
        rw [he] at hav
        have hl := hav.length_eq
        obtain ⟨l, ls, hls⟩ := List.exists_cons_of_ne_nil hs
        simp [hls, lineEnds] at hl
      obtain ⟨path, lp', hlink⟩ := (C62_total hcut (by rw [hP]; exact hsub) hnd).2 hne
      obtain ⟨hb, -, q, hq, hqm, hlp'⟩ := C62_link hlink
      have herase : (lp.avail.erase s.cutPos).Perm (lineEnds s.scanlines) := by
        have := hav.erase s.cutPos
        simpa using this
      obtain ⟨l, hl, hql⟩ := mem_lineEnds.mp (herase.mem_iff.mp hqm)
      have hlook : lineMap.lookup q = some l := by
        rcases hql with rfl | rfl
        · exact (hmap l hl).1
        · exact (hmap l hl).2
      obtain ⟨next, hnext⟩ : ∃ x, x = if l.1 = q then l.2 else l.1 := ⟨_, rfl⟩
      have hdir : (q, next) = l ∨ (q, next) = (l.2, l.1) := by
        by_cases h1 : l.1 = q
        · left; rw [hnext, if_pos h1, ← h1]
        · right
          rcases hql with h | h
          · exact absurd h.symm h1
          · rw [hnext, if_neg h1, ← h]
      have hpl := List.perm_cons_erase hl
      have hpe : (lineEnds s.scanlines).Perm (q :: next :: lineEnds (s.scanlines.erase l)) := by
        refine (lineEnds_perm hpl).trans ?_
        simp only [lineEnds, List.flatMap_cons, List.cons_append, List.nil_append]
        rcases hdir with h | h
        · have e1 : q = l.1 := congrArg Prod.fst h
          have e2 : next = l.2 := congrArg Prod.snd h
          rw [e1, e2]
        · have e1 : q = l.2 := congrArg Prod.fst h
          have e2 : next = l.1 := congrArg Prod.snd h
          rw [e1, e2]; exact List.Perm.swap _ _ _
      have hav' : lp'.avail.Perm (next :: lineEnds (s.scanlines.erase l)) := by
        rw [hlp']
        have := (herase.trans hpe).erase q
        simpa using this
      have hsubav : ∀ x ∈ lp'.avail, x ∈ lp.avail := by
        intro x hx
        rw [hlp'] at hx
        exact List.mem_of_mem_erase (List.mem_of_mem_erase hx)
      have hround : routeRound owner lineMap s = .ok ⟨[lp'], s.scanlines.erase l, next, s.seq ++ path ++ [next], s.seqs⟩ := by
        unfold routeRound
        simp only [getKey, hown _ hcut, ok_bind, hlps, getPolygon, List.getElem?_cons_zero, hlink, RouteState.follow, hq,
          hlook, removeLine, if_pos hl, List.set_cons_zero, ← hnext]
      obtain ⟨lines, rest, h1, h2, ls, h3, h4⟩ := ih ⟨[lp'], s.scanlines.erase l, next, s.seq ++ path ++ [next], s.seqs⟩ lp' (by
            have := hpl.length_eq
            simp only [List.length_cons] at this
            simp only
            omega) rfl (by rw [hlp']; exact hP) hav' (by rw [hlp']; exact (hnd.erase _).erase _)
          (fun x hx => hsub x (hsubav x hx)) (fun x hx => hown x (hsubav x hx))
          (fun x hx => hmap x (List.mem_of_mem_erase hx)) hseqs
      refine ⟨(q, next) :: lines, path ++ next :: rest, ?_, ⟨path, rest, rfl, hq, hP ▸ hb.run, h2⟩,
        l :: ls, (h3.cons l).trans hpl.symm, .cons hdir h4⟩
      unfold routeLoop
      simp only [hs, if_false, hround, ok_bind, h1]
      simp

/-- What linking does to the polygon, wherever it puts the point. -/
theorem linkPoint_ok {lp lp' : LinkedPolygon} {q a b : Pt} (h : lp.linkPoint q a b = .ok lp') :
    q ∉ lp.linked ∧ ∃ i, lp' = { lp with polygon := pyInsert lp.polygon i q, linked := lp.linked ++ [q] } := by
  unfold LinkedPolygon.linkPoint at h
  split at h
  · cases h
  · rename_i hq
    refine ⟨hq, ?_⟩
    obtain ⟨i, -, h⟩ := bind_ok.mp h
    obtain ⟨j, -, h⟩ := bind_ok.mp h
    split at h
    · cases h; exact ⟨_, rfl⟩
    · obtain ⟨k, -, h⟩ := bind_ok.mp h
      cases h; exact ⟨_, rfl⟩

theorem pyInsert_perm (l : List Pt) (i : ℕ) (p : Pt) : (pyInsert l i p).Perm (p :: l) := by
  unfold pyInsert
  refine List.perm_middle.trans ?_
  rw [List.take_append_drop]

theorem pyInsert_sublist (l : List Pt) (i : ℕ) (p : Pt) : l.Sublist (pyInsert l i p) := by
  unfold pyInsert
  conv_lhs => rw [← List.take_append_drop i l]
  exact (List.Sublist.refl _).append (List.sublist_cons_self _ _)

/-- The state of the linking loop over the boundary `poly`, number `k`; `all` are the points there were at the beginning. -/
structure Linking (k : ℕ) (poly all : List Pt) (owner : List (Pt × ℕ)) (s : LinkState) : Prop where
  split : (s.lp.linked ++ s.remaining).Perm all
  nodup : s.lp.linked.Nodup
  polygon : s.lp.polygon.Perm (s.lp.linked ++ poly)
  order : poly.Sublist s.lp.polygon
  avail : s.lp.avail = []
  owns : ∀ q ∈ s.lp.linked, s.owner.lookup q = some k
  others : ∀ q, q ∉ s.lp.linked → s.owner.lookup q = owner.lookup q

theorem linkStep_linking {k : ℕ} {poly all : List Pt} {owner : List (Pt × ℕ)} {s s' : LinkState} {p1 p2 q : Pt}
    (hs : Linking k poly all owner s) (h : linkStep k p1 p2 s q = .ok s') : Linking k poly all owner s' := by
  unfold linkStep at h
  obtain ⟨d, -, h⟩ := bind_ok.mp h
  split at h
  · obtain ⟨rem, hr, h⟩ := bind_ok.mp h
    obtain ⟨lp, hl, h⟩ := bind_ok.mp h
    cases h
    obtain ⟨hm, rfl⟩ := pyRemove_ok.mp hr
    obtain ⟨hq, i, rfl⟩ := linkPoint_ok hl
    refine ⟨?_, ?_, ?_, hs.order.trans (pyInsert_sublist _ _ _), hs.avail, ?_, ?_⟩
    · refine List.Perm.trans ?_ hs.split
      simp only [List.append_assoc, List.cons_append, List.nil_append]
      exact (List.perm_cons_erase hm).symm.append_left _
    · simp only
      rw [List.nodup_append]
      refine ⟨hs.nodup, List.nodup_singleton _, ?_⟩
      intro a ha b hb
      rw [List.mem_singleton.mp hb]
      rintro rfl
      exact hq ha
    · refine (pyInsert_perm _ _ _).trans ((hs.polygon.cons q).trans ?_)
      simp only [List.append_assoc, List.cons_append, List.nil_append]
      exact List.perm_middle.symm
    · intro x hx
      by_cases he : x = q
      · subst he; simp [List.lookup]
      · have hb : (x == q) = false := by simpa using he
        simp only [List.lookup, hb]
        refine hs.owns x ?_
        simpa [he] using hx
    · intro x hx
      simp only [List.mem_append, List.mem_singleton, not_or] at hx
      have hb : (x == q) = false := by simpa using hx.2
      simp only [List.lookup, hb]
      exact hs.others x hx.1
  · cases h; exact hs

theorem linkBoundary_linking {k : ℕ} {poly rem : List Pt} {owner : List (Pt × ℕ)} {s : LinkState}
    (h : linkBoundary k rem owner poly = .ok s) : Linking k poly rem owner s := by
  unfold linkBoundary at h
  refine foldE_inv (Linking k poly rem owner) ?_ h ?_
  · intro b a b' _ hb hstep
    exact foldE_inv (Linking k poly rem owner) (fun b a b' _ hb hstep => linkStep_linking hb hstep) hstep hb
  · exact ⟨.refl _, .nil, .refl _, .refl _, rfl, by simp, by simp⟩

/-- A successful linking to a single boundary: all the points are linked, once each; the vertices keep their order. -/
theorem linkScanpoints_single {points poly : List Pt} {lps : List LinkedPolygon} {owner : List (Pt × ℕ)}
    (h : linkScanpoints points [poly] = .ok (lps, owner)) :
    ∃ lp, lps = [lp] ∧ lp.linked.Perm points ∧ points.Nodup ∧ lp.polygon.Perm (points ++ poly) ∧
      poly.Sublist lp.polygon ∧ ∀ q ∈ points, owner.lookup q = some 0 := by
  unfold linkScanpoints linkBoundaries at h
  obtain ⟨s, hs, h⟩ := bind_ok.mp h
  have hL := linkBoundary_linking hs
  unfold linkBoundaries at h
  by_cases hr : s.remaining = []
  · simp only [hr, ne_eq, not_true_eq_false, if_false, ok_bind, Except.ok.injEq, Prod.mk.injEq] at h
    obtain ⟨rfl, rfl⟩ := h
    have hp := hL.split
    rw [hr, List.append_nil] at hp
    exact ⟨s.lp, rfl, hp, hp.nodup_iff.mp hL.nodup, hL.polygon.trans (hp.append_right _), hL.order,
      fun q hq => hL.owns q (hp.mem_iff.mpr hq)⟩
  · simp only [ne_eq, hr, not_false_eq_true, if_true, error_bind] at h
    cases h

end CQ
