import Verif.Props.ZigZag

/-! # C61: zigzag routing over any number of boundaries -/

namespace CQ

theorem lookup_mem {β : Type} {d : List (Pt × β)} {q : Pt} {l : β} (h : d.lookup q = some l) : (q, l) ∈ d := by
  induction d with
  | nil => simp at h
  | cons x xs ih =>
    obtain ⟨x1, x2⟩ := x
    rw [List.lookup_cons] at h
    split at h
    · rename_i hq
      have : q = x1 := by simpa using hq
      cases h
      rw [this]
      simp
    · exact List.mem_cons_of_mem _ (ih h)

/-- The dictionary leads from a point to a scanline that ends there. -/
theorem scanlineMap_end {ss : List (Pt × Pt)} {q : Pt} {l : Pt × Pt} (h : (scanlineMap ss).lookup q = some l) :
    q = l.1 ∨ q = l.2 := by
  have hm := lookup_mem h
  clear h
  induction ss with
  | nil => simp [scanlineMap] at hm
  | cons s ss ih =>
    simp only [scanlineMap, List.mem_append, List.mem_cons, Prod.mk.injEq, List.not_mem_nil, or_false] at hm
    rcases hm with hm | ⟨rfl, rfl⟩ | ⟨rfl, rfl⟩
    · exact ih hm
    · exact .inr rfl
    · exact .inl rfl

theorem linksAndCutsAny_snoc {bs : List (List Pt)} {lines : List (Pt × Pt)} {b : Pt} {rest : List Pt} {s e : Pt} {link : List Pt}
    (h : LinksAndCutsAny bs b lines rest) (hl : link.getLast? = some s)
    (hr : ∃ boundary ∈ bs, BoundaryRun boundary ((b :: rest).getLast (by simp)) link) :
    LinksAndCutsAny bs b (lines ++ [(s, e)]) (rest ++ link ++ [e]) := by
  induction lines generalizing b rest with
  | nil =>
    cases h
    exact ⟨link, [], by simp, hl, hr, rfl⟩
  | cons l lines ih =>
    obtain ⟨s', e'⟩ := l
    obtain ⟨link', rest', rfl, h1, h2, h3⟩ := h
    refine ⟨link', rest' ++ link ++ [e], by simp, h1, h2, ih h3 ?_⟩
    have : (b :: (link' ++ e' :: rest')).getLast (by simp) = (e' :: rest').getLast (by simp) := by
      rw [List.getLast_cons (by simp), List.getLast_append_of_ne_nil _ (by simp)]
    rwa [this] at hr

theorem cutsLinesAny_snoc {bs : List (List Pt)} {lines : List (Pt × Pt)} {seq : List Pt} {c s e : Pt} {link : List Pt}
    (h : CutsLinesAny bs lines seq) (hne : lines ≠ []) (hc : seq.getLast? = some c) (hl : link.getLast? = some s)
    (hr : ∃ boundary ∈ bs, BoundaryRun boundary c link) : CutsLinesAny bs (lines ++ [(s, e)]) (seq ++ link ++ [e]) := by
  obtain ⟨l, ls, rfl⟩ := List.exists_cons_of_ne_nil hne
  obtain ⟨a, b⟩ := l
  obtain ⟨rest, rfl, h⟩ := h
  refine ⟨rest ++ link ++ [e], by simp, linksAndCutsAny_snoc h hl ?_⟩
  have : (b :: rest).getLast (by simp) = c := by
    rw [List.getLast?_cons_cons, List.getLast?_eq_some_getLast (by simp)] at hc
    exact Option.some.inj hc
  rwa [this]

theorem SameLines.perm {a b ss : List (Pt × Pt)} (hs : SameLines a ss) (h : a.Perm b) : SameLines b ss := by
  obtain ⟨ls, h1, h2⟩ := hs
  obtain ⟨ls', h3, h4⟩ := List.perm_comp_forall₂ h.symm h2
  exact ⟨ls', h4.trans h1, h3⟩

/-- Turning round the first of the lines, which is one of the scanlines. -/
theorem SameLines.turn {c ss : List (Pt × Pt)} {l l' : Pt × Pt} (hs : SameLines (l :: c) ss)
    (hl : l' = l ∨ l' = (l.2, l.1)) : SameLines (l' :: c) ss := by
  obtain ⟨ls, h1, h2⟩ := hs
  cases h2 with
  | cons h3 h4 =>
    refine ⟨_, h1, .cons ?_ h4⟩
    rcases hl with rfl | rfl
    · exact h3
    · rcases h3 with rfl | rfl
      · exact .inr rfl
      · exact .inl rfl

theorem SameLines.refl (ss : List (Pt × Pt)) : SameLines ss ss :=
  ⟨ss, .refl _, List.forall₂_same.mpr (fun _ _ => .inl rfl)⟩

/-- The state of the router: `groups` are the scanlines of the finished paths, `lines` those of the current one. -/
structure Routed (bs : List (List Pt)) (all : List (Pt × Pt)) (s : RouteState) (groups : List (List (Pt × Pt)))
    (lines : List (Pt × Pt)) : Prop where
  polygons : s.lps.map LinkedPolygon.polygon = bs
  done : List.Forall₂ (fun ls path => ls ≠ [] ∧ CutsLinesAny bs ls path) groups s.seqs
  nonempty : lines ≠ []
  current : CutsLinesAny bs lines s.seq
  last : s.seq.getLast? = some s.cutPos
  all : SameLines (groups.flatten ++ lines ++ s.scanlines) all

theorem map_set_same {lps : List LinkedPolygon} {k : ℕ} {lp lp' : LinkedPolygon} (h : lps[k]? = some lp)
    (hp : lp'.polygon = lp.polygon) :
    (lps.set k lp').map LinkedPolygon.polygon = lps.map LinkedPolygon.polygon := by
  obtain ⟨hk, rfl⟩ := List.getElem?_eq_some_iff.mp h
  rw [List.map_set, hp]
  apply List.ext_getElem (by simp)
  intro i h1 h2
  rw [List.getElem_set]
  split
  · rename_i he; subst he; simp
  · rfl

theorem nearestLinked_polygon {lp : LinkedPolygon} {p : Pt} {r : Option (List Pt) × LinkedPolygon}
    (h : lp.nearestLinked p = .ok r) : r.2.polygon = lp.polygon := by
  unfold LinkedPolygon.nearestLinked at h
  obtain ⟨av, -, h⟩ := bind_ok.mp h
  split at h
  · cases h; rfl
  · obtain ⟨i, -, h⟩ := bind_ok.mp h
    simp only [takeLink] at h
    split at h
    · cases h
    · obtain ⟨av', -, h⟩ := bind_ok.mp h
      cases h; rfl

theorem getPolygon_ok {lps : List LinkedPolygon} {k : ℕ} {lp : LinkedPolygon} (h : getPolygon lps k = .ok lp) :
    lps[k]? = some lp := by
  unfold getPolygon at h
  split at h
  · rename_i h'; cases h; exact h'
  · cases h

theorem routeRound_routed {bs : List (List Pt)} {all : List (Pt × Pt)} {owner : List (Pt × ℕ)} {s s' : RouteState}
    {groups : List (List (Pt × Pt))} {lines : List (Pt × Pt)} (hr : Routed bs all s groups lines)
    (h : routeRound owner (scanlineMap all) s = .ok s') :
    ∃ groups' lines', Routed bs all s' groups' lines' := by
  unfold routeRound at h
  obtain ⟨k, -, h⟩ := bind_ok.mp h
  obtain ⟨lp, hlp, h⟩ := bind_ok.mp h
  obtain ⟨⟨path, lp'⟩, hn, h⟩ := bind_ok.mp h
  replace hlp := getPolygon_ok hlp
  have hpoly := (map_set_same hlp (nearestLinked_polygon hn)).trans hr.polygons
  cases path with
  | none =>
    simp only [RouteState.restart] at h
    split at h
    · cases h
    · rename_i a b rest hs
      cases h
      refine ⟨groups ++ [lines], [(a, b)], ⟨hpoly, ?_, by simp, ⟨[], rfl, rfl⟩, by simp, ?_⟩⟩
      · exact List.rel_append hr.done (.cons ⟨hr.nonempty, hr.current⟩ .nil)
      · have := hr.all
        rw [hs] at this
        simpa using this
  | some path =>
    obtain ⟨hb, -, q, hq, -, -⟩ := C62_link hn
    simp only [RouteState.follow, hq] at h
    obtain ⟨line, hline, h⟩ := bind_ok.mp h
    obtain ⟨ss, hss, h⟩ := bind_ok.mp h
    cases h
    unfold removeLine at hss
    split at hss
    · rename_i hmem
      cases hss
      have hend : q = line.1 ∨ q = line.2 := by
        unfold getKey at hline
        split at hline
        · rename_i b hb; cases hline; exact scanlineMap_end hb
        · cases hline
      have hpl := List.perm_cons_erase hmem
      have hdir : (q, if line.1 = q then line.2 else line.1) = line ∨
          (q, if line.1 = q then line.2 else line.1) = (line.2, line.1) := by
        by_cases h1 : line.1 = q
        · left; rw [if_pos h1, ← h1]
        · right
          rcases hend with h | h
          · exact absurd h.symm h1
          · rw [if_neg h1, ← h]
      refine ⟨groups, lines ++ [(q, if line.1 = q then line.2 else line.1)], ⟨hpoly, hr.done, by simp, ?_, by simp, ?_⟩⟩
      · refine cutsLinesAny_snoc hr.current hr.nonempty hr.last hq ⟨lp.polygon, ?_, hb.run⟩
        rw [← hr.polygons]
        exact List.mem_map.mpr ⟨lp, List.mem_of_getElem? hlp, rfl⟩
      · have h1 : SameLines (line :: (groups.flatten ++ lines ++ s.scanlines.erase line)) all :=
          hr.all.perm ((hpl.append_left _).trans List.perm_middle)
        refine (h1.turn hdir).perm ?_
        rw [← List.append_assoc, List.append_assoc (groups.flatten ++ lines)]
        exact List.perm_middle.symm
    · cases hss

theorem routeLoop_routed {bs : List (List Pt)} {all : List (Pt × Pt)} {owner : List (Pt × ℕ)} {paths : List (List Pt)} :
    ∀ (n : ℕ) (s : RouteState) (groups : List (List (Pt × Pt))) (lines : List (Pt × Pt)),
      Routed bs all s groups lines → routeLoop owner (scanlineMap all) n s = .ok paths →
      ∃ gs : List (List (Pt × Pt)), List.Forall₂ (fun ls path => ls ≠ [] ∧ CutsLinesAny bs ls path) gs paths ∧
        SameLines gs.flatten all := by
  have base : ∀ (s : RouteState) (groups : List (List (Pt × Pt))) (lines : List (Pt × Pt)), s.scanlines = [] →
      Routed bs all s groups lines → ∃ gs : List (List (Pt × Pt)),
        List.Forall₂ (fun ls path => ls ≠ [] ∧ CutsLinesAny bs ls path) gs (s.seqs ++ [s.seq]) ∧ SameLines gs.flatten all := by
    intro s groups lines hs hr
    refine ⟨groups ++ [lines], List.rel_append hr.done (.cons ⟨hr.nonempty, hr.current⟩ .nil), ?_⟩
    have := hr.all
    rw [hs] at this
    simpa using this
  intro n
  induction n with
  | zero =>
    intro s groups lines hr h
    unfold routeLoop at h
    split at h
    · rename_i hs; cases h; exact base s groups lines hs hr
    · cases h
  | succ n ih =>
    intro s groups lines hr h
    unfold routeLoop at h
    split at h
    · rename_i hs; cases h; exact base s groups lines hs hr
    · obtain ⟨s', h1, h2⟩ := bind_ok.mp h
      obtain ⟨g', l', hr'⟩ := routeRound_routed hr h1
      exact ih s' g' l' hr' h2

/-- C61, any number of boundaries.  Whenever routing succeeds, every path cuts at least one scanline, each from one end to the
other, and goes from each scanline to the next along a boundary; all the paths together cut every scanline exactly once. -/
theorem C61_several {lps : List LinkedPolygon} {scanlines : List (Pt × Pt)} {owner : List (Pt × ℕ)} {paths : List (List Pt)}
    (h : routeZigZag lps scanlines owner (scanlineMap scanlines) = .ok paths) :
    ∃ groups : List (List (Pt × Pt)), SameLines groups.flatten scanlines ∧
      List.Forall₂ (fun lines path => lines ≠ [] ∧ CutsLinesAny (lps.map LinkedPolygon.polygon) lines path) groups paths := by
  cases scanlines with
  | nil => cases h
  | cons l rest =>
    unfold routeZigZag at h
    obtain ⟨⟨start, cut⟩, hor⟩ : ∃ x, orientLine l = x := ⟨_, rfl⟩
    simp only [hor] at h
    obtain ⟨k, -, h⟩ := bind_ok.mp h
    obtain ⟨lp, hlp, h⟩ := bind_ok.mp h
    obtain ⟨lp', hd, h⟩ := bind_ok.mp h
    have hdir : (start, cut) = l ∨ (start, cut) = (l.2, l.1) := by
      rw [← hor]; unfold orientLine; split
      · exact .inr rfl
      · exact .inl rfl
    have hp : lp'.polygon = lp.polygon := by
      unfold LinkedPolygon.drop at hd
      obtain ⟨av, -, hd⟩ := bind_ok.mp hd
      cases hd; rfl
    obtain ⟨gs, h1, h2⟩ := routeLoop_routed (bs := lps.map LinkedPolygon.polygon) _ _ [] [(start, cut)]
      ⟨by
        simp only
        rw [map_set_same (getPolygon_ok hlp) hp, List.map_map]
        rfl, .nil, by simp, ⟨[], rfl, rfl⟩, by simp, by
        simpa using (SameLines.refl (l :: rest)).turn hdir⟩ h
    exact ⟨gs, h2, h1⟩

theorem routeRound_length {owner : List (Pt × ℕ)} {lineMap : List (Pt × (Pt × Pt))} {s s' : RouteState}
    (h : routeRound owner lineMap s = .ok s') : s'.scanlines.length + 1 = s.scanlines.length := by
  unfold routeRound at h
  obtain ⟨k, -, h⟩ := bind_ok.mp h
  obtain ⟨lp, -, h⟩ := bind_ok.mp h
  obtain ⟨⟨path, lp'⟩, -, h⟩ := bind_ok.mp h
  cases path with
  | none =>
    simp only [RouteState.restart] at h
    split at h
    · cases h
    · rename_i hs; cases h; simp [hs]
  | some path =>
    simp only [RouteState.follow] at h
    split at h
    · cases h
    · obtain ⟨line, -, h⟩ := bind_ok.mp h
      obtain ⟨ss, hss, h⟩ := bind_ok.mp h
      cases h
      unfold removeLine at hss
      split at hss
      · rename_i hm
        cases hss
        simpa using (List.perm_cons_erase hm).length_eq.symm
      · cases hss

theorem pyRemove_ne_fuel {l : List Pt} {p : Pt} : pyRemove l p ≠ .error .outOfFuel := by
  unfold pyRemove; split <;> simp

theorem nearestLinked_ne_fuel {lp : LinkedPolygon} {p : Pt} : lp.nearestLinked p ≠ .error .outOfFuel := by
  unfold LinkedPolygon.nearestLinked takeLink pyRemove pyIndex
  intro h
  repeat' first
    | (simp only [ok_bind, error_bind] at h)
    | (split at h)
  all_goals cases h

theorem routeRound_ne_fuel {owner : List (Pt × ℕ)} {lineMap : List (Pt × (Pt × Pt))} {s : RouteState} :
    routeRound owner lineMap s ≠ .error .outOfFuel := by
  intro h
  unfold routeRound getKey getPolygon at h
  split at h
  · simp only [ok_bind] at h
    split at h
    · simp only [ok_bind] at h
      rename_i lp _
      cases hn : lp.nearestLinked s.cutPos with
      | error e =>
        rw [hn, error_bind] at h
        cases h
        exact nearestLinked_ne_fuel hn
      | ok r =>
        rw [hn, ok_bind] at h
        split at h
        · unfold RouteState.restart at h
          split at h <;> cases h
        · unfold RouteState.follow getKey removeLine at h
          split at h
          · cases h
          · split at h
            · simp only [ok_bind] at h
              split at h
              · cases h
              · cases h
            · cases h
    · cases h
  · cases h

/-- C61: the loop ends, for any boundaries, scanlines and dictionaries: every round takes one scanline off the list. -/
theorem C61_ends (lps : List LinkedPolygon) (scanlines : List (Pt × Pt)) (owner : List (Pt × ℕ))
    (lineMap : List (Pt × (Pt × Pt))) : routeZigZag lps scanlines owner lineMap ≠ .error .outOfFuel := by
  have loop : ∀ (n : ℕ) (s : RouteState), s.scanlines.length ≤ n → routeLoop owner lineMap n s ≠ .error .outOfFuel := by
    intro n
    induction n with
    | zero =>
      intro s hs
      unfold routeLoop
      rw [if_pos (List.length_eq_zero_iff.mp (by omega))]
      simp
    | succ n ih =>
      intro s hs
      unfold routeLoop
      split
      · simp
      · intro h
        cases hr : routeRound owner lineMap s with
        | error e =>
          simp only [hr, error_bind] at h
          cases h
          exact routeRound_ne_fuel hr
        | ok s' =>
          simp only [hr, ok_bind] at h
          refine ih s' ?_ h
          have := routeRound_length hr
          omega
  cases scanlines with
  | nil => simp [routeZigZag]
  | cons l rest =>
    intro h
    unfold routeZigZag getKey getPolygon LinkedPolygon.drop at h
    simp only at h
    split at h
    · simp only [ok_bind] at h
      split at h
      · rename_i lp _
        simp only [ok_bind] at h
        cases hd : pyRemove lp.avail (orientLine l).1 with
        | error e =>
          simp only [hd, error_bind] at h
          cases h
          exact pyRemove_ne_fuel hd
        | ok av =>
          simp only [hd, ok_bind] at h
          refine loop rest.length _ ?_ h
          exact le_rfl
      · cases h
    · cases h

/-! ### Examples -/

/-- An upright rectangle, given by its vertices; its closing segment is the lower side. -/
def tower (x : ℚ) : List Pt := [⟨x, 0⟩, ⟨x, 5⟩, ⟨x + 1, 5⟩, ⟨x + 1, 0⟩]

/-- Two scanlines across each of two rectangles side by side. -/
def towerLines (y₁ y₂ : ℚ) : List (Pt × Pt) :=
  [(⟨0, y₁⟩, ⟨1, y₁⟩), (⟨10, y₁⟩, ⟨11, y₁⟩), (⟨0, y₂⟩, ⟨1, y₂⟩), (⟨10, y₂⟩, ⟨11, y₂⟩)]

/-- A clipper for them. -/
def towerEngine (y₁ y₂ : ℚ) : ScanClipper where
  bounds _ := (0, 0, 11, 5)
  diagonal _ := 13
  clip _ _ := .ok (towerLines y₁ y₂)

/-- Routing over both: two paths. -/
example : (match zigzag (towerEngine 2 3) [tower 0, tower 10] 1 with
    | .ok ps => decide (ps = [[⟨0, 2⟩, ⟨1, 2⟩, ⟨1, 3⟩, ⟨0, 3⟩], [⟨10, 2⟩, ⟨11, 2⟩, ⟨11, 3⟩, ⟨10, 3⟩]])
    | .error _ => false) = true := by decide +kernel

/-- C61 fails for two boundaries whose scanlines have been linked without trouble: where the second path begins is not taken
off the points of its boundary, so the router may go back there, to a scanline that is already cut, and crashes. -/
theorem C61_restart_violated : ∃ (eng : ScanClipper) (boundaries : List (List Pt)) (scanlines : List (Pt × Pt)) (step : ℚ),
    0 < step ∧ (∀ ts, eng.clip boundaries ts = .ok scanlines) ∧ (lineEnds scanlines).Nodup ∧
      (∀ q ∈ lineEnds scanlines, ∃ b ∈ boundaries, q ∉ b ∧ ∃ seg ∈ segments b, OnSegment seg.1 seg.2 q) ∧
      (∃ r, linkScanpoints (scanpoints scanlines) boundaries = .ok r) ∧
      zigzag eng boundaries step = .error .valueError := by
  refine ⟨towerEngine 1 4, [tower 0, tower 10], towerLines 1 4, 3, by norm_num, fun _ => rfl, by decide +kernel, ?_, ?_,
    by decide +kernel⟩
  · intro q hq
    simp only [lineEnds, towerLines, List.flatMap_cons, List.flatMap_nil, List.cons_append, List.nil_append, List.append_nil,
      List.mem_cons, List.not_mem_nil, or_false] at hq
    rcases hq with rfl | rfl | rfl | rfl | rfl | rfl | rfl | rfl
    · exact ⟨tower 0, by simp, by decide +kernel, (⟨0, 0⟩, ⟨0, 5⟩), by decide +kernel, 1/5, by norm_num, by norm_num, by decide +kernel⟩
    · exact ⟨tower 0, by simp, by decide +kernel, (⟨1, 5⟩, ⟨1, 0⟩), by decide +kernel, 4/5, by norm_num, by norm_num, by decide +kernel⟩
    · exact ⟨tower 10, by simp, by decide +kernel, (⟨10, 0⟩, ⟨10, 5⟩), by decide +kernel, 1/5, by norm_num, by norm_num, by decide +kernel⟩
    · exact ⟨tower 10, by simp, by decide +kernel, (⟨11, 5⟩, ⟨11, 0⟩), by decide +kernel, 4/5, by norm_num, by norm_num, by decide +kernel⟩
    · exact ⟨tower 0, by simp, by decide +kernel, (⟨0, 0⟩, ⟨0, 5⟩), by decide +kernel, 4/5, by norm_num, by norm_num, by decide +kernel⟩
    · exact ⟨tower 0, by simp, by decide +kernel, (⟨1, 5⟩, ⟨1, 0⟩), by decide +kernel, 1/5, by norm_num, by norm_num, by decide +kernel⟩
    · exact ⟨tower 10, by simp, by decide +kernel, (⟨10, 0⟩, ⟨10, 5⟩), by decide +kernel, 4/5, by norm_num, by norm_num, by decide +kernel⟩
    · exact ⟨tower 10, by simp, by decide +kernel, (⟨11, 5⟩, ⟨11, 0⟩), by decide +kernel, 1/5, by norm_num, by norm_num, by decide +kernel⟩
  · cases h : linkScanpoints (scanpoints (towerLines 1 4)) [tower 0, tower 10] with
    | ok r => exact ⟨r, rfl⟩
    | error e =>
      have : (match linkScanpoints (scanpoints (towerLines 1 4)) [tower 0, tower 10] with
        | .ok _ => true
        | .error _ => false) = true := by decide +kernel
      rw [h] at this
      cases this

end CQ
