import Verif.Model.ZigZag64
import Verif.Spec.ZigZag64
import Verif.Props.Near64
import Verif.Props.Contours64
import Verif.Props.Pocket64
import Verif.Props.ProfileRun
import Verif.Props.ZigZagSeveral

/-! # Property C145: zigzag routing in floating point -/

namespace CQ

/-! ### Links along a boundary -/

/-- Which points a search passes does not depend on the distances. -/
theorem searchLinked64_points (avail : List Pt) (dist dist' : Pt → ℚ) (l : List Pt) (acc : ℚ) :
    (searchLinked64 avail dist acc l).2 = (searchLinked avail dist' l).2 := by
  induction l generalizing acc with
  | nil => rfl
  | cons q qs ih =>
    unfold searchLinked64 searchLinked
    by_cases h : q ∈ avail
    · simp [h]
    · simp only [h, if_false]
      rw [ih]

theorem searchLinked64_cases (avail : List Pt) (dist : Pt → ℚ) (acc : ℚ) (l : List Pt) :
    RunTo avail l (searchLinked64 avail dist acc l).2 ∨
      ((searchLinked64 avail dist acc l).2 = l ∧ ∀ p ∈ l, p ∉ avail) := by
  rw [searchLinked64_points avail dist dist]
  exact searchLinked_cases avail dist l

theorem searchLinked64_run {avail : List Pt} (dist : Pt → ℚ) (acc : ℚ) {l : List Pt} (h : ∃ p ∈ l, p ∈ avail) :
    RunTo avail l (searchLinked64 avail dist acc l).2 := by
  rw [searchLinked64_points avail dist dist]
  exact searchLinked_run dist h

/-- In order of the computed distances from `a`. -/
def Sorted64 (sq : ℚ → ℚ) (a : Pt) (ps : List Pt) : Prop := ps.Pairwise (fun p q => dist2F sq p a ≤ dist2F sq q a)

/-- Near the segment as it is computed. -/
def Near64 (sq : ℚ → ℚ) (seg : Pt × Pt) (q : Pt) : Prop :=
  ∃ d, distToSegmentSquared64 sq q seg.1 seg.2 = .ok d ∧ d.1 < b64 (1 / 10000000)

instance dist64Total (sq : ℚ → ℚ) (a : Pt) : Std.Total (fun p q : Pt => dist2F sq p a ≤ dist2F sq q a) := ⟨fun _ _ => le_total _ _⟩

instance dist64Trans (sq : ℚ → ℚ) (a : Pt) : IsTrans Pt (fun p q : Pt => dist2F sq p a ≤ dist2F sq q a) := ⟨fun _ _ _ => le_trans⟩

theorem nearestLinked64_ok {sq : ℚ → ℚ} {lp lp' : LinkedPolygon} {p : Pt} {path : List Pt}
    (h : lp.nearestLinked64 sq p = .ok (some path, lp')) :
    p ∈ lp.avail ∧ p ∈ lp.polygon ∧
      path = chooseLink
        (searchLinked64 (lp.avail.erase p) (fun q => dist2F sq p q) 0
          (lp.polygon.drop (lp.polygon.idxOf p + 1) ++ lp.polygon.take (lp.polygon.idxOf p)))
        (searchLinked64 (lp.avail.erase p) (fun q => dist2F sq q p) 0
          (lp.polygon.drop (lp.polygon.idxOf p + 1) ++ lp.polygon.take (lp.polygon.idxOf p)).reverse) ∧
      ∃ q, path.getLast? = some q ∧ q ∈ lp.avail.erase p ∧ lp' = { lp with avail := (lp.avail.erase p).erase q } := by
  unfold LinkedPolygon.nearestLinked64 at h
  obtain ⟨av, h1, h⟩ := bind_ok.mp h
  obtain ⟨hp, rfl⟩ := pyRemove_ok.mp h1
  split at h
  · cases h
  · obtain ⟨i, h2, h⟩ := bind_ok.mp h
    obtain ⟨hpp, rfl⟩ := pyIndex_ok.mp h2
    simp only [takeLink] at h
    split at h
    · cases h
    · rename_i q hq
      obtain ⟨av, h3, h⟩ := bind_ok.mp h
      obtain ⟨hm, rfl⟩ := pyRemove_ok.mp h3
      cases h
      exact ⟨hp, hpp, rfl, q, hq, hm, rfl⟩

/-- C145.  The link returned is a contiguous run of boundary vertices, forwards or backwards, that starts next to the entry
point and ends at the first point in that direction that is linked and not yet used; entry and exit are used up, nothing
else changes. -/
theorem C145_link {sq : ℚ → ℚ} {lp lp' : LinkedPolygon} {p : Pt} {path : List Pt}
    (h : lp.nearestLinked64 sq p = .ok (some path, lp')) :
    BoundaryLink lp.polygon (lp.avail.erase p) p path ∧ p ∈ lp.avail ∧
      ∃ q, path.getLast? = some q ∧ q ∈ lp.avail.erase p ∧
        lp' = { lp with avail := (lp.avail.erase p).erase q } := by
  obtain ⟨h1, h2, h3, q, h4, h5, h6⟩ := nearestLinked64_ok h
  refine ⟨⟨_, _, split_at h2, ?_⟩, h1, q, h4, h5, h6⟩
  unfold chooseLink at h3
  have key : ∀ (dist : Pt → ℚ) (l : List Pt), path = (searchLinked64 (lp.avail.erase p) dist 0 l).2 →
      RunTo (lp.avail.erase p) l path := by
    intro dist l he
    rcases searchLinked64_cases (lp.avail.erase p) dist 0 l with h' | ⟨h7, h8⟩
    · rw [he]; exact h'
    · rw [he, h7] at h4
      exact absurd h5 (h8 q (List.mem_of_getLast? h4))
  split at h3
  · left; exact key _ _ h3
  · right; exact key _ _ h3

/-- C145.  There is an answer for every unused linked point of the boundary: no link exactly if it is the last one. -/
theorem C145_total {sq : ℚ → ℚ} {lp : LinkedPolygon} {p : Pt} (hp : p ∈ lp.avail) (hsub : ∀ q ∈ lp.avail, q ∈ lp.polygon)
    (hn : lp.avail.Nodup) :
    (lp.avail = [p] → lp.nearestLinked64 sq p = .ok (none, { lp with avail := [] })) ∧
      (lp.avail ≠ [p] → ∃ path lp', lp.nearestLinked64 sq p = .ok (some path, lp')) := by
  have hrem : pyRemove lp.avail p = .ok (lp.avail.erase p) := pyRemove_ok.mpr ⟨hp, rfl⟩
  constructor
  · intro h
    unfold LinkedPolygon.nearestLinked64
    rw [hrem, ok_bind, h]
    simp
  · intro h
    have hne : lp.avail.erase p ≠ [] := by
      intro he
      apply h
      have := List.perm_cons_erase hp
      rw [he] at this
      exact List.perm_singleton.mp this
    have hi : pyIndex lp.polygon p = .ok (lp.polygon.idxOf p) := pyIndex_ok.mpr ⟨hsub p hp, rfl⟩
    unfold LinkedPolygon.nearestLinked64
    rw [hrem, ok_bind, if_neg hne, hi, ok_bind]
    have hsp := split_at (hsub p hp)
    obtain ⟨a, ha⟩ := List.exists_mem_of_ne_nil _ hne
    have ha1 := (hn.mem_erase_iff.mp ha)
    have hm : a ∈ lp.polygon.drop (lp.polygon.idxOf p + 1) ++ lp.polygon.take (lp.polygon.idxOf p) := by
      have := hsub a ha1.2
      rw [hsp] at this
      simp only [List.mem_append, List.mem_cons] at this ⊢
      rcases this with h | h | h
      · exact .inr h
      · exact absurd h ha1.1
      · exact .inl h
    have r1 := searchLinked64_run (fun q => dist2F sq p q) 0 ⟨a, hm, ha⟩
    have r2 := searchLinked64_run (fun q => dist2F sq q p) 0 ⟨a, List.mem_reverse.mpr hm, ha⟩
    have key : ∀ {l s : List Pt}, RunTo (lp.avail.erase p) l s →
        ∃ path lp', takeLink lp (lp.avail.erase p) s = .ok (some path, lp') := by
      rintro l s ⟨pre, q, rest, rfl, -, hq, -⟩
      refine ⟨pre ++ [q], { lp with avail := (lp.avail.erase p).erase q }, ?_⟩
      simp only [takeLink, List.getLast?_append, List.getLast?_singleton, Option.some_or]
      rw [pyRemove_ok.mpr ⟨hq, rfl⟩, ok_bind]
    dsimp only [chooseLink]
    split
    · exact key r1
    · exact key r2

/-- The loop of the zigzag router with a single boundary. -/
theorem routeLoop64_spec {sq : ℚ → ℚ} {owner : List (Pt × ℕ)} {lineMap : List (Pt × (Pt × Pt))} {P : List Pt} :
    ∀ (n : ℕ) (s : RouteState) (lp : LinkedPolygon), s.scanlines.length ≤ n → s.lps = [lp] → lp.polygon = P →
      lp.avail.Perm (s.cutPos :: lineEnds s.scanlines) → lp.avail.Nodup → (∀ q ∈ lp.avail, q ∈ P) →
      (∀ q ∈ lp.avail, owner.lookup q = some 0) →
      (∀ l ∈ s.scanlines, lineMap.lookup l.1 = some l ∧ lineMap.lookup l.2 = some l) → s.seqs = [] →
      ∃ lines rest, routeLoop64 sq owner lineMap n s = .ok [s.seq ++ rest] ∧ LinksAndCuts P s.cutPos lines rest ∧
        SameLines lines s.scanlines := by
  intro n
  induction n with
  | zero =>
    intro s lp hlen _ _ _ _ _ _ _ hseqs
    have : s.scanlines = [] := List.length_eq_zero_iff.mp (by omega)
    refine ⟨[], [], ?_, rfl, ⟨[], by rw [this], .nil⟩⟩
    unfold routeLoop64
    simp [this, hseqs]
  | succ n ih =>
    intro s lp hlen hlps hP hav hnd hsub hown hmap hseqs
    by_cases hs : s.scanlines = []
    · refine ⟨[], [], ?_, rfl, ⟨[], by rw [hs], .nil⟩⟩
      unfold routeLoop64
      simp [hs, hseqs]
    · have hcut : s.cutPos ∈ lp.avail := hav.mem_iff.mpr List.mem_cons_self
      have hne : lp.avail ≠ [s.cutPos] := by
        intro he
        rw [he] at hav
        have hl := hav.length_eq
        obtain ⟨l, ls, hls⟩ := List.exists_cons_of_ne_nil hs
        simp [hls, lineEnds] at hl
      obtain ⟨path, lp', hlink⟩ := (C145_total (sq := sq) hcut (by rw [hP]; exact hsub) hnd).2 hne
      obtain ⟨hb, -, q, hq, hqm, hlp'⟩ := C145_link hlink
      have herase : (lp.avail.erase s.cutPos).Perm (lineEnds s.scanlines) := by
        have := hav.erase s.cutPos
        simpa using this
      obtain ⟨l, hl, hql⟩ := mem_lineEnds.mp (herase.mem_iff.mp hqm)
      have hlook : lineMap.lookup q = some l := by
        rcases hql with rfl | rfl
        · exact (hmap l hl).1
        · exact (hmap l hl).2
      obtain ⟨next, hnext⟩ : ∃ x, x = if l.1 = q then l.2 else l.1 := ⟨_, rfl⟩
      have hdir : (q, next) = l ∨ (q, next) = (l.2, l.1) := by
        by_cases h1 : l.1 = q
        · left; rw [hnext, if_pos h1, ← h1]
        · right
          rcases hql with h | h
          · exact absurd h.symm h1
          · rw [hnext, if_neg h1, ← h]
      have hpl := List.perm_cons_erase hl
      have hpe : (lineEnds s.scanlines).Perm (q :: next :: lineEnds (s.scanlines.erase l)) := by
        refine (lineEnds_perm hpl).trans ?_
        simp only [lineEnds, List.flatMap_cons, List.cons_append, List.nil_append]
        rcases hdir with h | h
        · have e1 : q = l.1 := congrArg Prod.fst h
          have e2 : next = l.2 := congrArg Prod.snd h
          rw [e1, e2]
        · have e1 : q = l.2 := congrArg Prod.fst h
          have e2 : next = l.1 := congrArg Prod.snd h
          rw [e1, e2]; exact List.Perm.swap _ _ _
      have hav' : lp'.avail.Perm (next :: lineEnds (s.scanlines.erase l)) := by
        rw [hlp']
        have := (herase.trans hpe).erase q
        simpa using this
      have hsubav : ∀ x ∈ lp'.avail, x ∈ lp.avail := by
        intro x hx
        rw [hlp'] at hx
        exact List.mem_of_mem_erase (List.mem_of_mem_erase hx)
      have hround : routeRound64 sq owner lineMap s = .ok ⟨[lp'], s.scanlines.erase l, next, s.seq ++ path ++ [next], s.seqs⟩ := by
        unfold routeRound64
        simp only [getKey, hown _ hcut, ok_bind, hlps, getPolygon, List.getElem?_cons_zero, hlink, RouteState.follow, hq,
          hlook, removeLine, if_pos hl, List.set_cons_zero, ← hnext]
      obtain ⟨lines, rest, h1, h2, ls, h3, h4⟩ := ih ⟨[lp'], s.scanlines.erase l, next, s.seq ++ path ++ [next], s.seqs⟩ lp' (by
            have := hpl.length_eq
            simp only [List.length_cons] at this
            simp only
            omega) rfl (by rw [hlp']; exact hP) hav' (by rw [hlp']; exact (hnd.erase _).erase _)
          (fun x hx => hsub x (hsubav x hx)) (fun x hx => hown x (hsubav x hx))
          (fun x hx => hmap x (List.mem_of_mem_erase hx)) hseqs
      refine ⟨(q, next) :: lines, path ++ next :: rest, ?_, ⟨path, rest, rfl, hq, hP ▸ hb.run, h2⟩,
        l :: ls, (h3.cons l).trans hpl.symm, .cons hdir h4⟩
      unfold routeLoop64
      simp only [hs, if_false, hround, ok_bind, h1]
      simp

/-- What linking does to the polygon, wherever it puts the point. -/
theorem linkPoint64_ok {sq : ℚ → ℚ} {lp lp' : LinkedPolygon} {q a b : Pt} (h : lp.linkPoint64 sq q a b = .ok lp') :
    q ∉ lp.linked ∧ ∃ i, lp' = { lp with polygon := pyInsert lp.polygon i q, linked := lp.linked ++ [q] } := by
  unfold LinkedPolygon.linkPoint64 at h
  split at h
  · cases h
  · rename_i hq
    refine ⟨hq, ?_⟩
    obtain ⟨i, -, h⟩ := bind_ok.mp h
    obtain ⟨j, -, h⟩ := bind_ok.mp h
    split at h
    · cases h; exact ⟨_, rfl⟩
    · obtain ⟨k, -, h⟩ := bind_ok.mp h
      cases h; exact ⟨_, rfl⟩

theorem linkStep64_linking {sq : ℚ → ℚ} {k : ℕ} {poly all : List Pt} {owner : List (Pt × ℕ)} {s s' : LinkState} {p1 p2 q : Pt}
    (hs : Linking k poly all owner s) (h : linkStep64 sq k p1 p2 s q = .ok s') : Linking k poly all owner s' := by
  unfold linkStep64 at h
  obtain ⟨d, -, h⟩ := bind_ok.mp h
  split at h
  · obtain ⟨rem, hr, h⟩ := bind_ok.mp h
    obtain ⟨lp, hl, h⟩ := bind_ok.mp h
    cases h
    obtain ⟨hm, rfl⟩ := pyRemove_ok.mp hr
    obtain ⟨hq, i, rfl⟩ := linkPoint64_ok hl
    refine ⟨?_, ?_, ?_, hs.order.trans (pyInsert_sublist _ _ _), hs.avail, ?_, ?_⟩
    · refine List.Perm.trans ?_ hs.split
      simp only [List.append_assoc, List.cons_append, List.nil_append]
      exact (List.perm_cons_erase hm).symm.append_left _
    · simp only
      rw [List.nodup_append]
      refine ⟨hs.nodup, List.nodup_singleton _, ?_⟩
      intro a ha b hb
      rw [List.mem_singleton.mp hb]
      rintro rfl
      exact hq ha
    · refine (pyInsert_perm _ _ _).trans ((hs.polygon.cons q).trans ?_)
      simp only [List.append_assoc, List.cons_append, List.nil_append]
      exact List.perm_middle.symm
    · intro x hx
      by_cases he : x = q
      · subst he; simp [List.lookup]
      · have hb : (x == q) = false := by simpa using he
        simp only [List.lookup, hb]
        refine hs.owns x ?_
        simpa [he] using hx
    · intro x hx
      simp only [List.mem_append, List.mem_singleton, not_or] at hx
      have hb : (x == q) = false := by simpa using hx.2
      simp only [List.lookup, hb]
      exact hs.others x hx.1
  · cases h; exact hs

theorem linkBoundary64_linking {sq : ℚ → ℚ} {k : ℕ} {poly rem : List Pt} {owner : List (Pt × ℕ)} {s : LinkState}
    (h : linkBoundary64 sq k rem owner poly = .ok s) : Linking k poly rem owner s := by
  unfold linkBoundary64 at h
  refine foldE_inv (Linking k poly rem owner) ?_ h ?_
  · intro b a b' _ hb hstep
    exact foldE_inv (Linking k poly rem owner) (fun b a b' _ hb hstep => linkStep64_linking hb hstep) hstep hb
  · exact ⟨.refl _, .nil, .refl _, .refl _, rfl, by simp, by simp⟩

/-- A successful linking to a single boundary: all the points are linked, once each; the vertices keep their order. -/
theorem linkScanpoints64_single {sq : ℚ → ℚ} {points poly : List Pt} {lps : List LinkedPolygon} {owner : List (Pt × ℕ)}
    (h : linkScanpoints64 sq points [poly] = .ok (lps, owner)) :
    ∃ lp, lps = [lp] ∧ lp.linked.Perm points ∧ points.Nodup ∧ lp.polygon.Perm (points ++ poly) ∧
      poly.Sublist lp.polygon ∧ ∀ q ∈ points, owner.lookup q = some 0 := by
  unfold linkScanpoints64 linkBoundaries64 at h
  obtain ⟨s, hs, h⟩ := bind_ok.mp h
  have hL := linkBoundary64_linking hs
  unfold linkBoundaries64 at h
  by_cases hr : s.remaining = []
  · simp only [hr, ne_eq, not_true_eq_false, if_false, ok_bind, Except.ok.injEq, Prod.mk.injEq] at h
    obtain ⟨rfl, rfl⟩ := h
    have hp := hL.split
    rw [hr, List.append_nil] at hp
    exact ⟨s.lp, rfl, hp, hp.nodup_iff.mp hL.nodup, hL.polygon.trans (hp.append_right _), hL.order,
      fun q hq => hL.owns q (hp.mem_iff.mpr hq)⟩
  · simp only [ne_eq, hr, not_false_eq_true, if_true, error_bind] at h
    cases h

/-- Linking a point to a segment some points of which are linked already. -/
theorem linkPoint64_sorted {sq : ℚ → ℚ} {lp : LinkedPolygon} {A M B : List Pt} {s e q : Pt} (hpoly : lp.polygon = A ++ s :: (M ++ e :: B))
    (hs : s ∉ A) (he : e ∉ A ++ s :: M) (hq : q ∉ lp.linked) (hqM : q ∉ M) (hM : Sorted64 sq s M) :
    ∃ M', lp.linkPoint64 sq q s e = .ok { lp with polygon := A ++ s :: (M' ++ e :: B), linked := lp.linked ++ [q] } ∧
      M'.Perm (q :: M) ∧ Sorted64 sq s M' := by
  have hi : pyIndex lp.polygon s = .ok A.length := by rw [hpoly]; exact pyIndex_prefix hs
  have hj : pyIndex lp.polygon e = .ok (A.length + 1 + M.length) := by
    rw [hpoly, show A ++ s :: (M ++ e :: B) = (A ++ s :: M) ++ e :: B by simp, pyIndex_prefix he]
    simp only [List.length_append, List.length_cons]
    congr 1; omega
  unfold LinkedPolygon.linkPoint64
  simp only [if_neg hq, hi, hj, ok_bind]
  have hins : ∀ S1 S2, M = S1 ++ S2 → pyInsert lp.polygon (A.length + 1 + S1.length) q =
      A ++ s :: ((S1 ++ q :: S2) ++ e :: B) := by
    intro S1 S2 h
    unfold pyInsert
    have e1 : lp.polygon = (A ++ s :: S1) ++ (S2 ++ e :: B) := by rw [hpoly, h]; simp
    have e2 : A.length + 1 + S1.length = (A ++ s :: S1).length := by simp; omega
    rw [e1, e2, List.take_left, List.drop_left]
    simp
  by_cases h0 : A.length + 1 = A.length + 1 + M.length
  · have hM0 : M = [] := List.length_eq_zero_iff.mp (by omega)
    subst hM0
    refine ⟨[q], ?_, .refl _, List.pairwise_singleton _ _⟩
    rw [if_pos h0]
    have := hins [] [] rfl
    simp only [List.length_nil, Nat.add_zero, List.nil_append] at this
    rw [this]
  · rw [if_neg h0]
    have hr : (lp.polygon.drop (A.length + 1)).take (A.length + 1 + M.length - (A.length + 1)) = M := by
      have e1 : lp.polygon = (A ++ [s]) ++ (M ++ e :: B) := by rw [hpoly]; simp
      have e2 : A.length + 1 = (A ++ [s]).length := by simp
      rw [show A.length + 1 + M.length - (A.length + 1) = M.length by omega, e1, e2, List.drop_left, List.take_left]
    rw [hr]
    obtain ⟨S1, S2, h1, h2, h3⟩ := insert_sorted (fun p q : Pt => dist2F sq p s ≤ dist2F sq q s) hM hqM
    simp only [h1, pyIndex_prefix h2, ok_bind]
    refine ⟨S1 ++ q :: S2, ?_, ?_, ?_⟩
    · rw [hins S1 S2 h3]
    · rw [h3]; exact List.perm_middle
    · unfold Sorted64; rw [← h1]
      exact List.pairwise_insertionSort _ _

theorem near64_iff {sq : ℚ → ℚ} {v w q : Pt} (h : dist2F sq v w ≠ 0) :
    ∃ d, distToSegmentSquared64 sq q v w = .ok d ∧ (d.1 < b64 (1 / 10000000) ↔ Near64 sq (v, w) q) := by
  unfold Near64 distToSegmentSquared64
  simp only [if_neg h]
  refine ⟨_, rfl, ?_⟩
  constructor
  · intro hlt
    exact ⟨_, rfl, hlt⟩
  · rintro ⟨d, hd, hlt⟩
    cases hd
    exact hlt

/-- Linking points to one segment. -/
theorem linkSegment64_sorted {sq : ℚ → ℚ} {k : ℕ} {A B : List Pt} {v w : Pt} (hz : dist2F sq v w ≠ 0) (hvw : v ≠ w) (hv : v ∉ A) (hwA : w ∉ A) :
    ∀ (l : List Pt) (s : LinkState) (M : List Pt), s.lp.polygon = A ++ v :: (M ++ w :: B) → w ∉ M → Sorted64 sq v M →
      l.Nodup → (∀ q ∈ l, q ∈ s.remaining) → s.remaining.Nodup →
      (∀ q ∈ s.remaining, q ∉ s.lp.linked ∧ q ∉ M ∧ q ≠ w) →
      ∃ s' M' new, foldE (linkStep64 sq k v w) s l = .ok s' ∧ s'.lp.polygon = A ++ v :: (M' ++ w :: B) ∧
        s'.lp.linked = s.lp.linked ++ new ∧ s'.lp.avail = s.lp.avail ∧ M'.Perm (new ++ M) ∧ Sorted64 sq v M' ∧
        s.remaining.Perm (new ++ s'.remaining) ∧ (∀ q ∈ new, Near64 sq (v, w) q) ∧
        ∀ q ∈ l, q ∈ s'.remaining → ¬ Near64 sq (v, w) q := by
  intro l
  induction l with
  | nil =>
    intro s M hp hw hM _ _ _ _
    exact ⟨s, M, [], rfl, hp, by simp, rfl, .refl _, hM, .refl _, by simp, by simp⟩
  | cons q l ih =>
    intro s M hp hw hM hl hsub hrem hq
    have hql := List.nodup_cons.mp hl
    obtain ⟨d, hd, hnear⟩ := near64_iff (q := q) hz
    by_cases hn : d.1 < b64 (1 / 10000000)
    · have hqr := hsub q List.mem_cons_self
      obtain ⟨h1, h2, h3⟩ := hq q hqr
      have hwn : w ∉ A ++ v :: M := by
        simp only [List.mem_append, List.mem_cons, not_or]
        exact ⟨hwA, fun h => hvw h.symm, hw⟩
      obtain ⟨M1, hl1, hp1, hs1⟩ := linkPoint64_sorted hp hv hwn h1 h2 hM
      have hstep : linkStep64 sq k v w s q = .ok ⟨s.remaining.erase q,
          { s.lp with polygon := A ++ v :: (M1 ++ w :: B), linked := s.lp.linked ++ [q] }, (q, k) :: s.owner⟩ := by
        unfold linkStep64
        simp only [hd, ok_bind, if_pos hn, pyRemove_ok.mpr ⟨hqr, rfl⟩, hl1]
      obtain ⟨s', M', new, g1, g2, g3, g4, g5, g6, g7, g8, g9⟩ := ih ⟨s.remaining.erase q,
          { s.lp with polygon := A ++ v :: (M1 ++ w :: B), linked := s.lp.linked ++ [q] }, (q, k) :: s.owner⟩ M1 rfl
        (by rw [hp1.mem_iff, List.mem_cons, not_or]; exact ⟨fun h => h3 h.symm, hw⟩) hs1 hql.2
        (fun x hx => (hrem.mem_erase_iff).mpr ⟨fun h => hql.1 (h ▸ hx), hsub x (List.mem_cons_of_mem _ hx)⟩)
        (hrem.erase _) (by
          intro x hx
          obtain ⟨hxq, hxr⟩ := hrem.mem_erase_iff.mp hx
          obtain ⟨y1, y2, y3⟩ := hq x hxr
          refine ⟨?_, ?_, y3⟩
          · simp only [List.mem_append, List.mem_singleton, not_or]; exact ⟨y1, hxq⟩
          · rw [hp1.mem_iff, List.mem_cons, not_or]; exact ⟨hxq, y2⟩)
      refine ⟨s', M', q :: new, ?_, g2, by simp [g3], g4, ?_, g6, ?_, ?_, ?_⟩
      · simp only [foldE, hstep, ok_bind, g1]
      · refine g5.trans ((hp1.append_left new).trans ?_)
        exact List.perm_middle
      · exact (List.perm_cons_erase hqr).trans (g7.cons q)
      · intro x hx
        rcases List.mem_cons.mp hx with rfl | hx
        · exact hnear.mp hn
        · exact g8 x hx
      · intro x hx hxr
        rcases List.mem_cons.mp hx with rfl | hx
        · exfalso
          have : x ∈ s.remaining.erase x := g7.mem_iff.mpr (List.mem_append_right _ hxr)
          exact (hrem.mem_erase_iff.mp this).1 rfl
        · exact g9 x hx hxr
    · have hstep : linkStep64 sq k v w s q = .ok s := by
        unfold linkStep64
        simp only [hd, ok_bind, if_neg hn]
      obtain ⟨s', M', new, g1, g2, g3, g4, g5, g6, g7, g8, g9⟩ := ih s M hp hw hM hql.2
        (fun x hx => hsub x (List.mem_cons_of_mem _ hx)) hrem hq
      refine ⟨s', M', new, ?_, g2, g3, g4, g5, g6, g7, g8, ?_⟩
      · simp only [foldE, hstep, ok_bind, g1]
      · intro x hx hxr
        rcases List.mem_cons.mp hx with rfl | hx
        · exact fun h => hn (hnear.mpr h)
        · exact g9 x hx hxr

/-- Linking points to a polyline with different vertices. -/
theorem linkPolyline64_sorted {sq : ℚ → ℚ} {k : ℕ} {B : List Pt} :
    ∀ (vs : List Pt) (v : Pt) (A : List Pt) (s : LinkState), s.lp.polygon = A ++ (v :: vs ++ B) → (v :: vs).Nodup →
      (∀ seg ∈ segments (v :: vs), dist2F sq seg.1 seg.2 ≠ 0) →
      (∀ x ∈ v :: vs, x ∉ A) → s.remaining.Nodup → (∀ q ∈ s.remaining, q ∉ s.lp.linked ∧ q ∉ v :: vs) →
      ∃ s' blocks, foldE (linkSegment64 sq k) s (segments (v :: vs)) = .ok s' ∧
        s'.lp.polygon = A ++ (weave (v :: vs) blocks ++ B) ∧
        (s'.lp.linked).Perm (s.lp.linked ++ blocks.flatten) ∧ s'.lp.avail = s.lp.avail ∧
        List.Forall₂ (fun seg b => Sorted64 sq seg.1 b ∧ ∀ q ∈ b, Near64 sq seg q) (segments (v :: vs)) blocks ∧
        s.remaining.Perm (blocks.flatten ++ s'.remaining) ∧
        ∀ seg ∈ segments (v :: vs), ∀ q ∈ s'.remaining, ¬ Near64 sq seg q := by
  intro vs
  induction vs with
  | nil =>
    intro v A s hp _ _ _ _ _
    exact ⟨s, [], rfl, hp, by simp, rfl, .nil, .refl _, by simp [segments]⟩
  | cons w vs ih =>
    intro v A s hp hn hz hA hrem hq
    have hn' := List.nodup_cons.mp hn
    have hvw : v ≠ w := fun h => hn'.1 (h ▸ List.mem_cons_self)
    obtain ⟨s1, M, new, g1, g2, g3, g4, g5, g6, g7, g8, g9⟩ :=
      linkSegment64_sorted (k := k) (B := vs ++ B) (hz (v, w) List.mem_cons_self) hvw (hA v List.mem_cons_self)
        (hA w (List.mem_cons_of_mem _ List.mem_cons_self)) s.remaining s [] (by simpa using hp) (by simp) List.Pairwise.nil
        hrem (fun _ h => h) hrem (fun q h => ⟨(hq q h).1, by simp, fun h' => (hq q h).2 (by simp [h'])⟩)
    rw [List.append_nil] at g5
    have hnr : (new ++ s1.remaining).Nodup := g7.nodup_iff.mp hrem
    have hnr' := List.nodup_append.mp hnr
    have hin : ∀ q, q ∈ new ∨ q ∈ s1.remaining → q ∈ s.remaining := fun q h =>
      g7.mem_iff.mpr (List.mem_append.mpr h)
    obtain ⟨s2, bs, f1, f2, f4, f5, f6, f7, f8⟩ := ih w (A ++ v :: M) s1 (by rw [g2]; simp) hn'.2
      (fun seg hs => hz seg (List.mem_cons_of_mem _ hs)) (by
        intro x hx
        simp only [List.mem_append, List.mem_cons, not_or]
        refine ⟨hA x (List.mem_cons_of_mem _ hx), fun h => hn'.1 (h ▸ hx), fun h => ?_⟩
        have := (hq x (hin x (.inl (g5.mem_iff.mp h)))).2
        exact this (List.mem_cons_of_mem _ hx)) hnr'.2.1 (by
        intro q h
        have h2 := hq q (hin q (.inr h))
        refine ⟨?_, fun h' => h2.2 (List.mem_cons_of_mem _ h')⟩
        rw [g3, List.mem_append, not_or]
        exact ⟨h2.1, fun h' => hnr'.2.2 _ h' _ h rfl⟩)
    refine ⟨s2, M :: bs, ?_, ?_, ?_, f5.trans g4, .cons ⟨g6, ?_⟩ f6, ?_, ?_⟩
    · simp only [segments, foldE]
      simp only [linkSegment64, g1, ok_bind]
      exact f1
    · rw [f2]; simp [weave]
    · refine f4.trans ?_
      rw [g3]
      simp only [List.flatten_cons, List.append_assoc]
      exact (g5.symm.append_right _).append_left _
    · intro q hqM
      exact g8 q (g5.mem_iff.mp hqM)
    · refine g7.trans ?_
      simp only [List.flatten_cons, List.append_assoc]
      exact g5.symm.append f7
    · intro seg hseg q hqr
      simp only [segments, List.mem_cons] at hseg
      rcases hseg with rfl | hseg
      · have h1 : q ∈ s1.remaining := f7.mem_iff.mpr (List.mem_append_right _ hqr)
        exact g9 q (hin q (.inr h1)) h1
      · exact f8 seg hseg q hqr

/-- C145.  Routing over a single boundary to which the ends of the scanlines have been linked: the loop ends, and the result is
one path that cuts every scanline exactly once from one end to the other and goes from each scanline to the next along the
boundary. -/
theorem C145_route {sq : ℚ → ℚ} {poly : List Pt} {scanlines : List (Pt × Pt)} {lps : List LinkedPolygon} {owner : List (Pt × ℕ)}
    (hne : scanlines ≠ []) (hlink : linkScanpoints64 sq (scanpoints scanlines) [poly] = .ok (lps, owner)) :
    ∃ lp lines path, lps = [lp] ∧ lp.polygon.Perm (lineEnds scanlines ++ poly) ∧ poly.Sublist lp.polygon ∧
      routeZigZag64 sq lps scanlines owner (scanlineMap scanlines) = .ok [path] ∧ CutsLines lp.polygon lines path ∧
      SameLines lines scanlines := by
  obtain ⟨lp, rfl, h1, h2, h3, h4, h5⟩ := linkScanpoints64_single hlink
  rw [scanpoints_eq] at h1 h2 h3 h5
  obtain ⟨l, rest, rfl⟩ := List.exists_cons_of_ne_nil hne
  obtain ⟨⟨start, cut⟩, hor⟩ : ∃ x, orientLine l = x := ⟨_, rfl⟩
  have hdir : (start, cut) = l ∨ (start, cut) = (l.2, l.1) := by
    rw [← hor]; unfold orientLine; split
    · exact .inr rfl
    · exact .inl rfl
  have hends : (lineEnds (l :: rest)).Perm (start :: cut :: lineEnds rest) := by
    simp only [lineEnds, List.flatMap_cons, List.cons_append, List.nil_append]
    rcases hdir with h | h
    · have e1 : start = l.1 := congrArg Prod.fst h
      have e2 : cut = l.2 := congrArg Prod.snd h
      rw [e1, e2]
    · have e1 : start = l.2 := congrArg Prod.fst h
      have e2 : cut = l.1 := congrArg Prod.snd h
      rw [e1, e2]; exact List.Perm.swap _ _ _
  have hstart : start ∈ lp.linked := (h1.trans hends).mem_iff.mpr List.mem_cons_self
  have hav : (lp.linked.erase start).Perm (cut :: lineEnds rest) := by
    have := (h1.trans hends).erase start
    simpa using this
  obtain ⟨lines, path, r1, r2, ls, r3, r4⟩ := routeLoop64_spec (owner := owner) (lineMap := scanlineMap (l :: rest))
    (P := lp.polygon) rest.length ⟨[{ lp.reset with avail := lp.linked.erase start }], rest, cut, [start, cut], []⟩
    { lp.reset with avail := lp.linked.erase start } le_rfl rfl rfl hav ((h1.nodup_iff.mpr h2).erase _)
    (by
      intro q hq
      refine h3.mem_iff.mpr (List.mem_append_left _ (h1.mem_iff.mp (List.mem_of_mem_erase hq))))
    (by
      intro q hq
      exact h5 q (h1.mem_iff.mp (List.mem_of_mem_erase hq)))
    (by
      intro x hx
      exact scanlineMap_lookup h2 (List.mem_cons_of_mem _ hx)) rfl
  refine ⟨lp, (start, cut) :: lines, start :: cut :: path, rfl, h3, h4, ?_, ⟨path, rfl, r2⟩, l :: ls, r3.cons l,
    .cons hdir r4⟩
  unfold routeZigZag64
  simp only [hor, getKey, h5 start (h1.mem_iff.mp hstart), ok_bind, List.map_cons, List.map_nil, getPolygon,
    List.getElem?_cons_zero, LinkedPolygon.drop, LinkedPolygon.reset, pyRemove_ok.mpr ⟨hstart, rfl⟩, List.set_cons_zero]
  simpa [LinkedPolygon.reset] using r1

/-- C145.  Whenever linking to boundaries succeeds, every point has been linked to exactly one boundary, and each boundary is
its vertices, in their order, with its linked points inserted. -/
theorem C145_order {sq : ℚ → ℚ} {points : List Pt} {boundaries : List (List Pt)} {lps : List LinkedPolygon} {owner : List (Pt × ℕ)}
    (h : linkScanpoints64 sq points boundaries = .ok (lps, owner)) :
    List.Forall₂ (fun poly lp => poly.Sublist lp.polygon ∧ lp.polygon.Perm (lp.linked ++ poly)) boundaries lps ∧
      (lps.flatMap LinkedPolygon.linked).Perm points := by
  have key : ∀ (bs : List (List Pt)) (k : ℕ) (rem : List Pt) (own own' : List (Pt × ℕ)) (ls : List LinkedPolygon),
      linkBoundaries64 sq k rem own bs = .ok (ls, own') →
      List.Forall₂ (fun poly lp => poly.Sublist lp.polygon ∧ lp.polygon.Perm (lp.linked ++ poly)) bs ls ∧
        (ls.flatMap LinkedPolygon.linked).Perm rem := by
    intro bs
    induction bs with
    | nil =>
      intro k rem own own' ls h
      unfold linkBoundaries64 at h
      by_cases hr : rem = []
      · simp only [hr, ne_eq, not_true_eq_false, if_false, Except.ok.injEq, Prod.mk.injEq] at h
        obtain ⟨rfl, -⟩ := h
        exact ⟨.nil, by rw [hr]; exact .refl _⟩
      · simp only [ne_eq, hr, not_false_eq_true, if_true] at h
        cases h
    | cons b bs ih =>
      intro k rem own own' ls h
      unfold linkBoundaries64 at h
      obtain ⟨s, hs, h⟩ := bind_ok.mp h
      obtain ⟨⟨ls1, o1⟩, h1, h⟩ := bind_ok.mp h
      cases h
      have hL := linkBoundary64_linking hs
      obtain ⟨i1, i2⟩ := ih _ _ _ _ _ h1
      refine ⟨.cons ⟨hL.order, hL.polygon⟩ i1, ?_⟩
      rw [List.flatMap_cons]
      exact (i2.append_left _).trans hL.split
  exact key _ _ _ _ _ _ h

/-- For boundaries given by lists of different vertices and points near their segments (not the closing one) and at no
vertex: linking succeeds, and every boundary is its vertices with, after each of them, the points linked to the segment
beginning there, in order of the distance from it. -/
theorem linked64_sorted {sq : ℚ → ℚ} {points : List Pt} {boundaries : List (List Pt)} (hb : ∀ b ∈ boundaries, b.Nodup)
    (hz : ∀ b ∈ boundaries, ∀ seg ∈ segments b, dist2F sq seg.1 seg.2 ≠ 0)
    (hp : points.Nodup) (hd : ∀ b ∈ boundaries, ∀ q ∈ points, q ∉ b)
    (hn : ∀ q ∈ points, ∃ b ∈ boundaries, ∃ seg ∈ segments b, Near64 sq seg q) :
    ∃ lps owner blocks, linkScanpoints64 sq points boundaries = .ok (lps, owner) ∧ blocks.flatten.flatten.Perm points ∧
      blocks.length = boundaries.length ∧
      List.Forall₂ (fun b lp => lp.polygon = weave b.1 b.2 ∧ lp.linked.Perm b.2.flatten ∧
        List.Forall₂ (fun seg ps => Sorted64 sq seg.1 ps ∧ ∀ q ∈ ps, Near64 sq seg q) (segments b.1) b.2)
        (boundaries.zip blocks) lps := by
  have key : ∀ (bs : List (List Pt)) (k : ℕ) (rem : List Pt) (own : List (Pt × ℕ)), (∀ b ∈ bs, b.Nodup) →
      (∀ b ∈ bs, ∀ seg ∈ segments b, dist2F sq seg.1 seg.2 ≠ 0) → rem.Nodup →
      (∀ b ∈ bs, ∀ q ∈ rem, q ∉ b) → (∀ q ∈ rem, ∃ b ∈ bs, ∃ seg ∈ segments b, Near64 sq seg q) →
      ∃ lps owner blocks, linkBoundaries64 sq k rem own bs = .ok (lps, owner) ∧ blocks.flatten.flatten.Perm rem ∧
        blocks.length = bs.length ∧
        List.Forall₂ (fun b lp => lp.polygon = weave b.1 b.2 ∧ lp.linked.Perm b.2.flatten ∧
          List.Forall₂ (fun seg ps => Sorted64 sq seg.1 ps ∧ ∀ q ∈ ps, Near64 sq seg q) (segments b.1) b.2)
          (bs.zip blocks) lps := by
    intro bs
    induction bs with
    | nil =>
      intro k rem own _ _ _ _ hn
      have hr : rem = [] := by
        refine List.eq_nil_iff_forall_not_mem.mpr (fun q hq => ?_)
        obtain ⟨b, hb, -⟩ := hn q hq
        cases hb
      refine ⟨[], own, [], ?_, by rw [hr]; exact .refl _, rfl, .nil⟩
      simp [linkBoundaries64, hr]
    | cons b bs ih =>
      intro k rem own hb hz hr hd hn
      obtain ⟨s, blocks, f1, f2, f3, f4, f5, f6⟩ : ∃ s blocks, linkBoundary64 sq k rem own b = .ok s ∧
          s.lp.polygon = weave b blocks ∧ s.lp.linked.Perm blocks.flatten ∧
          List.Forall₂ (fun seg ps => Sorted64 sq seg.1 ps ∧ ∀ q ∈ ps, Near64 sq seg q) (segments b) blocks ∧
          rem.Perm (blocks.flatten ++ s.remaining) ∧ ∀ seg ∈ segments b, ∀ q ∈ s.remaining, ¬ Near64 sq seg q := by
        cases b with
        | nil => exact ⟨_, [], rfl, rfl, .refl _, .nil, .refl _, by simp [segments]⟩
        | cons v vs =>
          obtain ⟨s, blocks, f1, f2, f3, -, f5, f6, f7⟩ := linkPolyline64_sorted (k := k) (B := []) vs v []
            ⟨rem, { polygon := v :: vs }, own⟩ (by simp) (hb _ List.mem_cons_self)
            (hz _ List.mem_cons_self) (by simp) hr
            (fun q hq => ⟨by simp, hd _ List.mem_cons_self q hq⟩)
          exact ⟨s, blocks, f1, by simpa using f2, by simpa using f3, f5, f6, f7⟩
      have hsub : ∀ q ∈ s.remaining, q ∈ rem := fun q hq => f5.mem_iff.mpr (List.mem_append_right _ hq)
      obtain ⟨lps, owner, bls, g1, g2, g3, g4⟩ := ih (k + 1) s.remaining s.owner
        (fun x hx => hb x (List.mem_cons_of_mem _ hx)) (fun x hx => hz x (List.mem_cons_of_mem _ hx)) (List.nodup_append.mp (f5.nodup_iff.mp hr)).2.1
        (fun x hx q hq => hd x (List.mem_cons_of_mem _ hx) q (hsub q hq)) (by
          intro q hq
          obtain ⟨c, hc, seg, hseg, hnear⟩ := hn q (hsub q hq)
          rcases List.mem_cons.mp hc with rfl | hc
          · exact absurd hnear (f6 seg hseg q hq)
          · exact ⟨c, hc, seg, hseg, hnear⟩)
      refine ⟨s.lp :: lps, owner, blocks :: bls, ?_, ?_, by simp [g3], .cons ⟨f2, f3, f4⟩ g4⟩
      · simp only [linkBoundaries64, f1, g1, ok_bind]
      · rw [List.flatten_cons, List.flatten_append]
        exact (g2.append_left _).trans f5.symm
  exact key _ _ _ _ hb hz hp hd hn

/-- Linking and routing together: a zigzag over one boundary, given by different vertices, whose scanlines have different ends, none
of them at a vertex or on the closing segment. -/
theorem zigzag64_sorted {sq : ℚ → ℚ} (eng : ScanClipper) {poly : List Pt} {toolDiameter stepover : ℚ} {scanlines templates : List (Pt × Pt)}
    (ht : scanTemplates64 eng [poly] toolDiameter stepover = .ok templates) (hc : eng.clip [poly] templates = .ok scanlines)
    (hne : scanlines ≠ []) (hb : poly.Nodup)
    (hz : ∀ seg ∈ segments poly, dist2F sq seg.1 seg.2 ≠ 0) (hp : (lineEnds scanlines).Nodup) (hd : ∀ q ∈ lineEnds scanlines, q ∉ poly)
    (hn : ∀ q ∈ lineEnds scanlines, ∃ seg ∈ segments poly, Near64 sq seg q) :
    ∃ blocks lines path, zigzag64 sq eng [poly] toolDiameter stepover = .ok [path] ∧ blocks.flatten.Perm (lineEnds scanlines) ∧
      List.Forall₂ (fun seg ps => Sorted64 sq seg.1 ps ∧ ∀ q ∈ ps, Near64 sq seg q) (segments poly) blocks ∧
      CutsLines (weave poly blocks) lines path ∧ SameLines lines scanlines := by
  obtain ⟨lps, owner, blocks, h1, h2, h3, h4⟩ := linked64_sorted (points := scanpoints scanlines) (boundaries := [poly])
    (by simpa using hb) (by simpa using hz) hp (by simpa [scanpoints_eq] using hd) (by
      intro q hq
      obtain ⟨seg, hs, hq⟩ := hn q hq
      exact ⟨poly, by simp, seg, hs, hq⟩)
  obtain ⟨lp, lines, path, rfl, -, -, r1, r2, r3⟩ := C145_route hne h1
  obtain ⟨bl, rfl⟩ := List.length_eq_one_iff.mp h3
  simp only [List.zip_cons_cons, List.zip_nil_right] at h4
  cases h4 with
  | cons h _ =>
    refine ⟨bl, lines, path, ?_, by simpa [scanpoints_eq] using h2, h.2.2, h.1 ▸ r2, r3⟩
    unfold zigzag64
    simp only [ht, hc, h1, ok_bind, r1]

theorem nearestLinked64_polygon {sq : ℚ → ℚ} {lp : LinkedPolygon} {p : Pt} {r : Option (List Pt) × LinkedPolygon}
    (h : lp.nearestLinked64 sq p = .ok r) : r.2.polygon = lp.polygon := by
  unfold LinkedPolygon.nearestLinked64 at h
  obtain ⟨av, -, h⟩ := bind_ok.mp h
  split at h
  · cases h; rfl
  · obtain ⟨i, -, h⟩ := bind_ok.mp h
    simp only [takeLink] at h
    split at h
    · cases h
    · obtain ⟨av', -, h⟩ := bind_ok.mp h
      cases h; rfl

theorem routeRound64_routed {sq : ℚ → ℚ} {bs : List (List Pt)} {all : List (Pt × Pt)} {owner : List (Pt × ℕ)} {s s' : RouteState}
    {groups : List (List (Pt × Pt))} {lines : List (Pt × Pt)} (hr : Routed bs all s groups lines)
    (h : routeRound64 sq owner (scanlineMap all) s = .ok s') :
    ∃ groups' lines', Routed bs all s' groups' lines' := by
  unfold routeRound64 at h
  obtain ⟨k, -, h⟩ := bind_ok.mp h
  obtain ⟨lp, hlp, h⟩ := bind_ok.mp h
  obtain ⟨⟨path, lp'⟩, hn, h⟩ := bind_ok.mp h
  replace hlp := getPolygon_ok hlp
  have hpoly := (map_set_same hlp (nearestLinked64_polygon hn)).trans hr.polygons
  cases path with
  | none =>
    simp only [RouteState.restart] at h
    split at h
    · cases h
    · rename_i a b rest hs
      cases h
      refine ⟨groups ++ [lines], [(a, b)], ⟨hpoly, ?_, by simp, ⟨[], rfl, rfl⟩, by simp, ?_⟩⟩
      · exact List.rel_append hr.done (.cons ⟨hr.nonempty, hr.current⟩ .nil)
      · have := hr.all
        rw [hs] at this
        simpa using this
  | some path =>
    obtain ⟨hb, -, q, hq, -, -⟩ := C145_link hn
    simp only [RouteState.follow, hq] at h
    obtain ⟨line, hline, h⟩ := bind_ok.mp h
    obtain ⟨ss, hss, h⟩ := bind_ok.mp h
    cases h
    unfold removeLine at hss
    split at hss
    · rename_i hmem
      cases hss
      have hend : q = line.1 ∨ q = line.2 := by
        unfold getKey at hline
        split at hline
        · rename_i b hb; cases hline; exact scanlineMap_end hb
        · cases hline
      have hpl := List.perm_cons_erase hmem
      have hdir : (q, if line.1 = q then line.2 else line.1) = line ∨
          (q, if line.1 = q then line.2 else line.1) = (line.2, line.1) := by
        by_cases h1 : line.1 = q
        · left; rw [if_pos h1, ← h1]
        · right
          rcases hend with h | h
          · exact absurd h.symm h1
          · rw [if_neg h1, ← h]
      refine ⟨groups, lines ++ [(q, if line.1 = q then line.2 else line.1)], ⟨hpoly, hr.done, by simp, ?_, by simp, ?_⟩⟩
      · refine cutsLinesAny_snoc hr.current hr.nonempty hr.last hq ⟨lp.polygon, ?_, hb.run⟩
        rw [← hr.polygons]
        exact List.mem_map.mpr ⟨lp, List.mem_of_getElem? hlp, rfl⟩
      · have h1 : SameLines (line :: (groups.flatten ++ lines ++ s.scanlines.erase line)) all :=
          hr.all.perm ((hpl.append_left _).trans List.perm_middle)
        refine (h1.turn hdir).perm ?_
        rw [← List.append_assoc, List.append_assoc (groups.flatten ++ lines)]
        exact List.perm_middle.symm
    · cases hss

theorem routeLoop64_routed {sq : ℚ → ℚ} {bs : List (List Pt)} {all : List (Pt × Pt)} {owner : List (Pt × ℕ)} {paths : List (List Pt)} :
    ∀ (n : ℕ) (s : RouteState) (groups : List (List (Pt × Pt))) (lines : List (Pt × Pt)),
      Routed bs all s groups lines → routeLoop64 sq owner (scanlineMap all) n s = .ok paths →
      ∃ gs : List (List (Pt × Pt)), List.Forall₂ (fun ls path => ls ≠ [] ∧ CutsLinesAny bs ls path) gs paths ∧
        SameLines gs.flatten all := by
  have base : ∀ (s : RouteState) (groups : List (List (Pt × Pt))) (lines : List (Pt × Pt)), s.scanlines = [] →
      Routed bs all s groups lines → ∃ gs : List (List (Pt × Pt)),
        List.Forall₂ (fun ls path => ls ≠ [] ∧ CutsLinesAny bs ls path) gs (s.seqs ++ [s.seq]) ∧ SameLines gs.flatten all := by
    intro s groups lines hs hr
    refine ⟨groups ++ [lines], List.rel_append hr.done (.cons ⟨hr.nonempty, hr.current⟩ .nil), ?_⟩
    have := hr.all
    rw [hs] at this
    simpa using this
  intro n
  induction n with
  | zero =>
    intro s groups lines hr h
    unfold routeLoop64 at h
    split at h
    · rename_i hs; cases h; exact base s groups lines hs hr
    · cases h
  | succ n ih =>
    intro s groups lines hr h
    unfold routeLoop64 at h
    split at h
    · rename_i hs; cases h; exact base s groups lines hs hr
    · obtain ⟨s', h1, h2⟩ := bind_ok.mp h
      obtain ⟨g', l', hr'⟩ := routeRound64_routed hr h1
      exact ih s' g' l' hr' h2

/-- C145, any number of boundaries.  Whenever routing succeeds, every path cuts at least one scanline, each from one end to the
other, and goes from each scanline to the next along a boundary; all the paths together cut every scanline exactly once. -/
theorem C145_several {sq : ℚ → ℚ} {lps : List LinkedPolygon} {scanlines : List (Pt × Pt)} {owner : List (Pt × ℕ)} {paths : List (List Pt)}
    (h : routeZigZag64 sq lps scanlines owner (scanlineMap scanlines) = .ok paths) :
    ∃ groups : List (List (Pt × Pt)), SameLines groups.flatten scanlines ∧
      List.Forall₂ (fun lines path => lines ≠ [] ∧ CutsLinesAny (lps.map LinkedPolygon.polygon) lines path) groups paths := by
  cases scanlines with
  | nil => cases h
  | cons l rest =>
    unfold routeZigZag64 at h
    obtain ⟨⟨start, cut⟩, hor⟩ : ∃ x, orientLine l = x := ⟨_, rfl⟩
    simp only [hor] at h
    obtain ⟨k, -, h⟩ := bind_ok.mp h
    obtain ⟨lp, hlp, h⟩ := bind_ok.mp h
    obtain ⟨lp', hd, h⟩ := bind_ok.mp h
    have hdir : (start, cut) = l ∨ (start, cut) = (l.2, l.1) := by
      rw [← hor]; unfold orientLine; split
      · exact .inr rfl
      · exact .inl rfl
    have hp : lp'.polygon = lp.polygon := by
      unfold LinkedPolygon.drop at hd
      obtain ⟨av, -, hd⟩ := bind_ok.mp hd
      cases hd; rfl
    obtain ⟨gs, h1, h2⟩ := routeLoop64_routed (bs := lps.map LinkedPolygon.polygon) _ _ [] [(start, cut)]
      ⟨by
        simp only
        rw [map_set_same (getPolygon_ok hlp) hp, List.map_map]
        rfl, .nil, by simp, ⟨[], rfl, rfl⟩, by simp, by
        simpa using (SameLines.refl (l :: rest)).turn hdir⟩ h
    exact ⟨gs, h2, h1⟩

theorem routeRound64_length {sq : ℚ → ℚ} {owner : List (Pt × ℕ)} {lineMap : List (Pt × (Pt × Pt))} {s s' : RouteState}
    (h : routeRound64 sq owner lineMap s = .ok s') : s'.scanlines.length + 1 = s.scanlines.length := by
  unfold routeRound64 at h
  obtain ⟨k, -, h⟩ := bind_ok.mp h
  obtain ⟨lp, -, h⟩ := bind_ok.mp h
  obtain ⟨⟨path, lp'⟩, -, h⟩ := bind_ok.mp h
  cases path with
  | none =>
    simp only [RouteState.restart] at h
    split at h
    · cases h
    · rename_i hs; cases h; simp [hs]
  | some path =>
    simp only [RouteState.follow] at h
    split at h
    · cases h
    · obtain ⟨line, -, h⟩ := bind_ok.mp h
      obtain ⟨ss, hss, h⟩ := bind_ok.mp h
      cases h
      unfold removeLine at hss
      split at hss
      · rename_i hm
        cases hss
        simpa using (List.perm_cons_erase hm).length_eq.symm
      · cases hss

theorem nearestLinked64_ne_fuel {sq : ℚ → ℚ} {lp : LinkedPolygon} {p : Pt} : lp.nearestLinked64 sq p ≠ .error .outOfFuel := by
  unfold LinkedPolygon.nearestLinked64 takeLink pyRemove pyIndex
  intro h
  repeat' first
    | (simp only [ok_bind, error_bind] at h)
    | (split at h)
  all_goals cases h

theorem routeRound64_ne_fuel {sq : ℚ → ℚ} {owner : List (Pt × ℕ)} {lineMap : List (Pt × (Pt × Pt))} {s : RouteState} :
    routeRound64 sq owner lineMap s ≠ .error .outOfFuel := by
  intro h
  unfold routeRound64 getKey getPolygon at h
  split at h
  · simp only [ok_bind] at h
    split at h
    · simp only [ok_bind] at h
      rename_i lp _
      cases hn : lp.nearestLinked64 sq s.cutPos with
      | error e =>
        rw [hn, error_bind] at h
        cases h
        exact nearestLinked64_ne_fuel hn
      | ok r =>
        rw [hn, ok_bind] at h
        split at h
        · unfold RouteState.restart at h
          split at h <;> cases h
        · unfold RouteState.follow getKey removeLine at h
          split at h
          · cases h
          · split at h
            · simp only [ok_bind] at h
              split at h
              · cases h
              · cases h
            · cases h
    · cases h
  · cases h

/-- C145: the loop ends, for any boundaries, scanlines and dictionaries: every round takes one scanline off the list. -/
theorem C145_ends {sq : ℚ → ℚ} (lps : List LinkedPolygon) (scanlines : List (Pt × Pt)) (owner : List (Pt × ℕ))
    (lineMap : List (Pt × (Pt × Pt))) : routeZigZag64 sq lps scanlines owner lineMap ≠ .error .outOfFuel := by
  have loop : ∀ (n : ℕ) (s : RouteState), s.scanlines.length ≤ n → routeLoop64 sq owner lineMap n s ≠ .error .outOfFuel := by
    intro n
    induction n with
    | zero =>
      intro s hs
      unfold routeLoop64
      rw [if_pos (List.length_eq_zero_iff.mp (by omega))]
      simp
    | succ n ih =>
      intro s hs
      unfold routeLoop64
      split
      · simp
      · intro h
        cases hr : routeRound64 sq owner lineMap s with
        | error e =>
          simp only [hr, error_bind] at h
          cases h
          exact routeRound64_ne_fuel hr
        | ok s' =>
          simp only [hr, ok_bind] at h
          refine ih s' ?_ h
          have := routeRound64_length hr
          omega
  cases scanlines with
  | nil => simp [routeZigZag64]
  | cons l rest =>
    intro h
    unfold routeZigZag64 getKey getPolygon LinkedPolygon.drop at h
    simp only at h
    split at h
    · simp only [ok_bind] at h
      split at h
      · rename_i lp _
        simp only [ok_bind] at h
        cases hd : pyRemove lp.avail (orientLine l).1 with
        | error e =>
          simp only [hd, error_bind] at h
          cases h
          exact pyRemove_ne_fuel hd
        | ok av =>
          simp only [hd, ok_bind] at h
          refine loop rest.length _ ?_ h
          exact le_rfl
      · cases h
    · cases h

/-! ### What is near a segment -/

/-- The parameter of the nearest point as it is computed, with an error relative to the sizes of the two vectors. -/
theorem segmentParam64_rel {sq : ℚ → ℚ} (hs : SquaresUpToUlp sq) {p v w : Pt} (hp : IsDouble p.x ∧ IsDouble p.y)
    (hv : IsDouble v.x ∧ IsDouble v.y) (hw : IsDouble w.x ∧ IsDouble w.y)
    (h : 2 ^ (-500 : ℤ) ≤ |v.x - w.x| ∨ 2 ^ (-500 : ℤ) ≤ |v.y - w.y|) :
    |segmentParam64 (dist2F sq v w) p v w * sqDist v w - ((p.x - v.x) * (w.x - v.x) + (p.y - v.y) * (w.y - v.y))| ≤
      18 * 2 ^ (-53 : ℤ) * (|(p.x - v.x) * (w.x - v.x)| + |(p.y - v.y) * (w.y - v.y)|) + 6 * 2 ^ (-1075 : ℤ) +
        2 ^ (-1075 : ℤ) * sqDist v w := by
  have hu0 := two_zpow_pos (-53)
  have hu : (2 : ℚ) ^ (-53 : ℤ) ≤ 1 / 1000 := by norm_num
  have hη := two_zpow_pos (-1075)
  have hx := prod_err (η := 2 ^ (-1075 : ℤ)) hu0 hu (b64_sub_err hp.1 hv.1) (b64_sub_err hw.1 hv.1) (b64_err _)
  have hy := prod_err (η := 2 ^ (-1075 : ℤ)) hu0 hu (b64_sub_err hp.2 hv.2) (b64_sub_err hw.2 hv.2) (b64_err _)
  have hL : 0 < sqDist v w := lt_of_lt_of_le (two_zpow_pos (-1000)) (sqDist_apart h)
  have hl := dist2F_rel hs hv.1 hv.2 hw.1 hw.2 h
  unfold segmentParam64
  generalize b64 (b64 (p.x - v.x) * b64 (w.x - v.x)) = mx at *
  generalize b64 (b64 (p.y - v.y) * b64 (w.y - v.y)) = my at *
  generalize dist2F sq v w = l at *
  generalize (p.x - v.x) * (w.x - v.x) = X at *
  generalize (p.y - v.y) * (w.y - v.y) = Y at *
  generalize sqDist v w = L at *
  have hX := abs_nonneg X
  have hY := abs_nonneg Y
  have hn := b64_err (mx + my)
  have hS : |mx + my - (X + Y)| ≤ 4 * 2 ^ (-53 : ℤ) * (|X| + |Y|) + 2 * 2 ^ (-1075 : ℤ) := by
    calc |mx + my - (X + Y)| = |(mx - X) + (my - Y)| := by congr 1; ring
      _ ≤ |mx - X| + |my - Y| := abs_add_le _ _
      _ ≤ _ := by linarith
  have hXY := abs_add_le X Y
  have hS' : |mx + my| ≤ (1 + 4 * 2 ^ (-53 : ℤ)) * (|X| + |Y|) + 2 * 2 ^ (-1075 : ℤ) := by
    calc |mx + my| = |(mx + my - (X + Y)) + (X + Y)| := by congr 1; ring
      _ ≤ |mx + my - (X + Y)| + |X + Y| := abs_add_le _ _
      _ ≤ _ := by linarith
  have ht := b64_err (b64 (mx + my) / l)
  generalize b64 (mx + my) = n at *
  have hnN : |n - (X + Y)| ≤ 6 * 2 ^ (-53 : ℤ) * (|X| + |Y|) + 4 * 2 ^ (-1075 : ℤ) := by
    have k1 := mul_le_mul_of_nonneg_left hS' hu0.le
    have : |n - (X + Y)| ≤ |n - (mx + my)| + |mx + my - (X + Y)| := by
      calc |n - (X + Y)| = |(n - (mx + my)) + (mx + my - (X + Y))| := by congr 1; ring
        _ ≤ _ := abs_add_le _ _
    generalize (2 : ℚ) ^ (-1075 : ℤ) = η at *
    norm_num at hS hn k1 ⊢
    linarith
  exact param_arith hu0 hu hη (by positivity) hXY hnN hL hl ht

/-- With an inexact parameter the square of the distance grows by at most the square of the error along the segment. -/
theorem clamp_square {p v w : Pt} (t s0 : ℚ) (h0 : 0 ≤ s0) (h1 : s0 ≤ 1) (hL : 0 < sqDist v w) :
    sqDist p (v.lerp w (max 0 (min 1 t))) ≤ sqDist p (v.lerp w s0) +
      (t * sqDist v w - ((p.x - v.x) * (w.x - v.x) + (p.y - v.y) * (w.y - v.y))) ^ 2 / sqDist v w := by
  obtain ⟨N, hN⟩ : ∃ N, N = (p.x - v.x) * (w.x - v.x) + (p.y - v.y) * (w.y - v.y) := ⟨_, rfl⟩
  have f : ∀ s, sqDist p (v.lerp w s) = sqDist p v - 2 * s * N + s * s * sqDist v w := by
    intro s; rw [hN]; unfold sqDist Pt.lerp; ring
  rw [f, f, ← hN]
  generalize sqDist p v = c
  generalize sqDist v w = L at *
  rw [← sub_le_iff_le_add', le_div_iff₀ hL]
  have hs : ∀ s : ℚ, (c - 2 * s * N + s * s * L - (c - 2 * s0 * N + s0 * s0 * L)) * L = (s * L - N) ^ 2 - (s0 * L - N) ^ 2 := by
    intro s; ring
  rw [hs]
  rcases lt_or_ge t 0 with h | h
  · rw [min_eq_right (by linarith), max_eq_left h.le]
    have k1 : t * L ≤ 0 := by nlinarith
    have k2 : 0 ≤ s0 * L := by positivity
    rcases lt_or_ge N 0 with hN' | hN' <;> nlinarith [sq_nonneg (s0 * L - N), sq_nonneg (t * L - N)]
  · rcases lt_or_ge 1 t with h' | h'
    · rw [min_eq_left h'.le, max_eq_right (by norm_num)]
      have k1 : L ≤ t * L := by nlinarith
      have k2 : s0 * L ≤ L := by nlinarith
      rcases lt_or_ge L N with hN' | hN' <;> nlinarith [sq_nonneg (s0 * L - N), sq_nonneg (t * L - N)]
    · rw [min_eq_right h', max_eq_right h]
      nlinarith [sq_nonneg (s0 * L - N)]

/-- The square of the error along the segment is negligible. -/
theorem param_square {M D A L : ℚ} {a b c d : ℚ} (hM : 1 ≤ M) (hL : 2 ^ (-1000 : ℤ) ≤ L) (hLM : L ≤ 8 * (M * M)) (hA : A = |a * b| + |c * d|)
    (hLe : L = b * b + d * d) (ha : |a| ≤ 3 * M) (hc : |c| ≤ 3 * M)
    (hD : |D| ≤ 18 * 2 ^ (-53 : ℤ) * A + 6 * 2 ^ (-1075 : ℤ) + 2 ^ (-1075 : ℤ) * L) : D ^ 2 / L ≤ 2 ^ (-90 : ℤ) * (M * M) := by
  have hL0 : 0 < L := lt_of_lt_of_le (two_zpow_pos _) hL
  rw [div_le_iff₀ hL0]
  have hMM : 1 ≤ M * M := by nlinarith
  have hA0 : 0 ≤ A := by rw [hA]; positivity
  have hAA : A ^ 2 ≤ 18 * (M * M) * L := by
    have h1 : A ^ 2 ≤ 2 * ((a * b) ^ 2 + (c * d) ^ 2) := by
      rw [hA, ← sq_abs (a * b), ← sq_abs (c * d)]
      nlinarith [sq_nonneg (|a * b| - |c * d|)]
    have h2 : a * a ≤ 9 * (M * M) := by
      rw [← abs_mul_abs_self a]; nlinarith [abs_nonneg a]
    have h3 : c * c ≤ 9 * (M * M) := by
      rw [← abs_mul_abs_self c]; nlinarith [abs_nonneg c]
    have h4 := mul_le_mul_of_nonneg_right h2 (mul_self_nonneg b)
    have h5 := mul_le_mul_of_nonneg_right h3 (mul_self_nonneg d)
    rw [hLe]
    nlinarith
  have e1 : (2 : ℚ) ^ (-1075 : ℤ) = 2 ^ (-575 : ℤ) * 2 ^ (-500 : ℤ) := by rw [← zpow_add₀ (by norm_num)]; norm_num
  have e2 : (2 : ℚ) ^ (-1000 : ℤ) = 2 ^ (-500 : ℤ) * 2 ^ (-500 : ℤ) := by rw [← zpow_add₀ (by norm_num)]; norm_num
  have e3 : (2 : ℚ) ^ (-575 : ℤ) ≤ 2 ^ (-60 : ℤ) := zpow_le_zpow_right₀ (by norm_num) (by norm_num)
  have e4 : (2 : ℚ) ^ (-1075 : ℤ) ≤ 2 ^ (-60 : ℤ) := zpow_le_zpow_right₀ (by norm_num) (by norm_num)
  have hp := two_zpow_pos (-500)
  have hp2 := two_zpow_pos (-1075)
  -- the three parts, squared
  have q2 : (6 * (2 : ℚ) ^ (-1075 : ℤ)) ^ 2 ≤ 36 * (2 ^ (-60 : ℤ)) ^ 2 * L := by
    have h1 : (2 : ℚ) ^ (-1075 : ℤ) ≤ 2 ^ (-60 : ℤ) * 2 ^ (-500 : ℤ) := by
      rw [e1]; exact mul_le_mul_of_nonneg_right e3 hp.le
    have h2 : ((2 : ℚ) ^ (-1075 : ℤ)) ^ 2 ≤ (2 ^ (-60 : ℤ) * 2 ^ (-500 : ℤ)) ^ 2 := pow_le_pow_left₀ hp2.le h1 2
    have h3 : ((2 : ℚ) ^ (-60 : ℤ) * 2 ^ (-500 : ℤ)) ^ 2 = (2 ^ (-60 : ℤ)) ^ 2 * 2 ^ (-1000 : ℤ) := by rw [e2]; ring
    have h4 : ((2 : ℚ) ^ (-60 : ℤ)) ^ 2 * 2 ^ (-1000 : ℤ) ≤ (2 ^ (-60 : ℤ)) ^ 2 * L := mul_le_mul_of_nonneg_left hL (by positivity)
    rw [mul_pow]
    linarith
  have q3 : ((2 : ℚ) ^ (-1075 : ℤ) * L) ^ 2 ≤ (2 ^ (-60 : ℤ)) ^ 2 * (8 * (M * M)) * L := by
    have h1 : (2 : ℚ) ^ (-1075 : ℤ) * L ≤ 2 ^ (-60 : ℤ) * L := mul_le_mul_of_nonneg_right e4 hL0.le
    have h2 := pow_le_pow_left₀ (mul_nonneg hp2.le hL0.le) h1 2
    have h3 : L * L ≤ 8 * (M * M) * L := mul_le_mul_of_nonneg_right hLM hL0.le
    have h4 := mul_le_mul_of_nonneg_left h3 (show (0 : ℚ) ≤ (2 ^ (-60 : ℤ)) ^ 2 by positivity)
    nlinarith
  have q1 : (18 * (2 : ℚ) ^ (-53 : ℤ) * A) ^ 2 ≤ (18 * 2 ^ (-53 : ℤ)) ^ 2 * (18 * (M * M) * L) := by
    rw [mul_pow]
    exact mul_le_mul_of_nonneg_left hAA (by positivity)
  have hsq : D ^ 2 ≤ (18 * 2 ^ (-53 : ℤ) * A + 6 * 2 ^ (-1075 : ℤ) + 2 ^ (-1075 : ℤ) * L) ^ 2 := by
    rw [← sq_abs D]
    exact pow_le_pow_left₀ (abs_nonneg _) hD 2
  have three : ∀ x y z : ℚ, (x + y + z) ^ 2 ≤ 3 * (x ^ 2 + y ^ 2 + z ^ 2) := by
    intro x y z; nlinarith [sq_nonneg (x - y), sq_nonneg (y - z), sq_nonneg (x - z)]
  have h6 := hsq.trans (three _ _ _)
  have hML : L ≤ M * M * L := by nlinarith
  refine h6.trans ?_
  generalize (6 * (2 : ℚ) ^ (-1075 : ℤ)) ^ 2 = Y at *
  generalize ((2 : ℚ) ^ (-1075 : ℤ) * L) ^ 2 = Z at *
  generalize (18 * (2 : ℚ) ^ (-53 : ℤ) * A) ^ 2 = X at *
  clear hsq h6 three hD e1 e2 e3 e4 hp hp2 hL
  have hML0 : 0 ≤ M * M * L := by positivity
  norm_num at *
  nlinarith

/-- The square of a distance when the far end moves a little. -/
theorem sqDist_moved {p c c' : Pt} {tol : ℚ} (h : PtNear tol c c') : sqDist p c ≤ 1001 / 1000 * sqDist p c' + 2002 * tol ^ 2 := by
  have key : ∀ {p c c' : ℚ}, |c - c'| ≤ tol → (p - c) * (p - c) ≤ 1001 / 1000 * ((p - c') * (p - c')) + 1001 * tol ^ 2 := by
    intro p c c' h
    have h1 : (c - c') ^ 2 ≤ tol ^ 2 := by rw [← sq_abs (c - c')]; exact pow_le_pow_left₀ (abs_nonneg _) h 2
    nlinarith [sq_nonneg ((p - c') / 1000 + (c - c'))]
  have h1 := key (p := p.x) h.1
  have h2 := key (p := p.y) h.2
  unfold sqDist
  linarith

/-- The test whether a point is near a segment, up to a kilometre: what is within 0.0003 mm passes, and what passes is within
0.00034 mm. -/
theorem near64_spec {sq : ℚ → ℚ} (hs : SquaresUpToUlp sq) {M : ℚ} (hM : 1 ≤ M) (hM2 : M ≤ 10 ^ 6) {q v w : Pt} (hq : PtDouble (2 * M) q)
    (hv : PtDouble M v) (hw : PtDouble M w) (h : 2 ^ (-500 : ℤ) ≤ |v.x - w.x| ∨ 2 ^ (-500 : ℤ) ≤ |v.y - w.y|) :
    (NearWithin (9 / 10 ^ 8) (v, w) q → Near64 sq (v, w) q) ∧ (Near64 sq (v, w) q → NearWithin (11 / 10 ^ 8) (v, w) q) := by
  have hne := (dist2F_ne_zero hs hv hw h).ne'
  have herr := segmentParam64_rel hs hq.1 hv.1 hw.1 h
  have hL := sqDist_apart h
  have hL0 : 0 < sqDist v w := lt_of_lt_of_le (two_zpow_pos _) hL
  have hcl := clamp_square (p := q) (v := v) (w := w) (segmentParam64 (dist2F sq v w) q v w)
  have hdef : distToSegmentSquared64 sq q v w =
      let s := max 0 (min 1 (segmentParam64 (dist2F sq v w) q v w))
      .ok (dist2F sq q ⟨lerp64 s v.x w.x, lerp64 s v.y w.y⟩, ⟨lerp64 s v.x w.x, lerp64 s v.y w.y⟩) := by
    unfold distToSegmentSquared64
    simp only [if_neg hne]
  generalize segmentParam64 (dist2F sq v w) q v w = t at *
  obtain ⟨-, qx, qy⟩ := id hq
  obtain ⟨-, vx, vy⟩ := id hv
  obtain ⟨-, wx, wy⟩ := id hw
  have sub : ∀ {a b A B : ℚ}, |a| ≤ A → |b| ≤ B → |a - b| ≤ A + B := by
    intro a b A B ha hb
    rw [abs_le] at *; constructor <;> linarith
  have hps := param_square hM hL (by
      unfold sqDist
      rw [← abs_mul_abs_self (v.x - w.x), ← abs_mul_abs_self (v.y - w.y)]
      have h1 := mul_le_mul (sub vx wx) (sub vx wx) (abs_nonneg _) (by linarith)
      have h2 := mul_le_mul (sub vy wy) (sub vy wy) (abs_nonneg _) (by linarith)
      nlinarith) rfl (by unfold sqDist; ring) ((sub qx vx).trans (by linarith)) ((sub qy vy).trans (by linarith)) herr
  have s0 : 0 ≤ max 0 (min 1 t) := le_max_left _ _
  have s1 : max 0 (min 1 t) ≤ 1 := max_le (by norm_num) (min_le_left _ _)
  generalize max 0 (min 1 t) = s at *
  simp only at hdef
  obtain ⟨near, hd, -⟩ := lerpPt_near hM hv.2 hw.2 s0 s1
  generalize (⟨lerp64 s v.x w.x, lerp64 s v.y w.y⟩ : Pt) = c at *
  have hdist := abs_le.mp (dist2F_err hs hq.1.1 hq.1.2 hd.1.1 hd.1.2)
  have hη : (2 : ℚ) ^ (-1072 : ℤ) ≤ 2 ^ (-100 : ℤ) := zpow_le_zpow_right₀ (by norm_num) (by norm_num)
  have hb := abs_le.mp (b64_err (1 / 10000000))
  have hη' : (2 : ℚ) ^ (-1075 : ℤ) ≤ 2 ^ (-100 : ℤ) := zpow_le_zpow_right₀ (by norm_num) (by norm_num)
  rw [abs_of_pos (by norm_num)] at hb
  have htol : (2 : ℚ) ^ (-49 : ℤ) * M ≤ 1 / 10 ^ 8 := by norm_num; linarith
  have htol2 : ((2 : ℚ) ^ (-49 : ℤ) * M) ^ 2 ≤ (1 / 10 ^ 8) ^ 2 := pow_le_pow_left₀ (by positivity) htol 2
  have near' : PtNear (2 ^ (-49 : ℤ) * M) (v.lerp w s) c := by
    refine ⟨?_, ?_⟩
    · rw [abs_sub_comm]; exact near.1
    · rw [abs_sub_comm]; exact near.2
  have m1 := sqDist_moved (p := q) near
  have m2 := sqDist_moved (p := q) near'
  have hMM : M * M ≤ 10 ^ 12 := by nlinarith
  have hn1 := sqDist_nonneg' q c
  generalize ((2 : ℚ) ^ (-49 : ℤ) * M) ^ 2 = tt at *
  generalize (2 : ℚ) ^ (-1072 : ℤ) = η at *
  generalize (2 : ℚ) ^ (-1075 : ℤ) = η' at *
  constructor
  · rintro ⟨x, ⟨u, u0, u1, rfl⟩, hx⟩
    have k1 := hcl u u0 u1 hL0
    refine ⟨_, hdef, ?_⟩
    simp only at hx ⊢
    norm_num at *
    nlinarith
  · rintro ⟨d, h1, h2⟩
    simp only at h1
    rw [hdef] at h1
    cases h1
    simp only at h2
    refine ⟨v.lerp w s, ⟨s, s0, s1, rfl⟩, ?_⟩
    norm_num at *
    nlinarith

theorem forall₂_imp_both {α β : Type} {R S : α → β → Prop} {a : List α} {b : List β} (h : List.Forall₂ R a b)
    (hi : ∀ x y, x ∈ a → y ∈ b → R x y → S x y) : List.Forall₂ S a b := by
  induction h with
  | nil => exact .nil
  | cons h1 _ ih => exact .cons (hi _ _ (by simp) (by simp) h1) (ih (fun x y hx hy => hi x y (by simp [hx]) (by simp [hy])))

theorem near64_of {sq : ℚ → ℚ} (hs : SquaresUpToUlp sq) {M : ℚ} (hM : 1 ≤ M) (hM2 : M ≤ 10 ^ 6) {b : List Pt} (hb : BoundaryOK64 M b)
    {q : Pt} (hq : PtDouble (2 * M) q) {seg : Pt × Pt} (hseg : seg ∈ segments b) :
    (NearWithin (9 / 10 ^ 8) seg q → Near64 sq seg q) ∧ (Near64 sq seg q → NearWithin (11 / 10 ^ 8) seg q) := by
  obtain ⟨h1, h2⟩ := segments_mem hseg
  exact near64_spec hs hM hM2 hq (hb.double _ h1) (hb.double _ h2) (hb.apart seg hseg)

theorem sorted64_upTo {sq : ℚ → ℚ} (hs : SquaresWell sq) {a : Pt} {ps : List Pt} (ha : IsDouble a.x ∧ IsDouble a.y)
    (hp : ∀ p ∈ ps, IsDouble p.x ∧ IsDouble p.y) (h : Sorted64 sq a ps) : SortedUpTo a ps := by
  have sym : ∀ p q : Pt, dist2F sq p q = dist2F sq q p := by
    intro p q
    unfold dist2F
    rw [show p.x - q.x = -(q.x - p.x) by ring, show p.y - q.y = -(q.y - p.y) by ring, b64_neg, b64_neg, hs.even, hs.even]
  refine List.Pairwise.imp_of_mem ?_ h
  intro p q hpm hqm hpq
  rw [sym p a, sym q a] at hpq
  exact sqDist_of_dist2F hs.err ha.1 ha.2 (hp q hqm).1 (hp q hqm).2 (hp p hpm).1 (hp p hpm).2 hpq

/-- C145.  Linking in floating point.  Let the boundaries be lists of different vertices, and every end of a scanline be at no vertex and
within 0.0003 mm of a segment of a boundary (not of a closing one); all coordinates are doubles up to a kilometre.  Then all of them are
linked: every boundary is its vertices with, after each of them, the points linked to the segment beginning there, none of them further
than 0.00034 mm from it, in order of the distance along it up to rounding. -/
theorem C145_sorted_partial {sq : ℚ → ℚ} (hs : SquaresWell sq) {M : ℚ} (hM : 1 ≤ M) (hM2 : M ≤ 10 ^ 6) {points : List Pt}
    {boundaries : List (List Pt)} (hb : ∀ b ∈ boundaries, BoundaryOK64 M b) (hp : points.Nodup)
    (hpd : ∀ q ∈ points, (IsDouble q.x ∧ IsDouble q.y) ∧ |q.x| ≤ 2 * M ∧ |q.y| ≤ 2 * M)
    (hd : ∀ b ∈ boundaries, ∀ q ∈ points, q ∉ b)
    (hn : ∀ q ∈ points, ∃ b ∈ boundaries, ∃ seg ∈ segments b, NearWithin (9 / 10 ^ 8) seg q) :
    ∃ lps owner blocks, linkScanpoints64 sq points boundaries = .ok (lps, owner) ∧ blocks.flatten.flatten.Perm points ∧
      blocks.length = boundaries.length ∧
      List.Forall₂ (fun b lp => lp.polygon = weave b.1 b.2 ∧ lp.linked.Perm b.2.flatten ∧
        List.Forall₂ (fun seg ps => SortedUpTo seg.1 ps ∧ ∀ q ∈ ps, NearWithin (11 / 10 ^ 8) seg q) (segments b.1) b.2)
        (boundaries.zip blocks) lps := by
  obtain ⟨lps, owner, blocks, h1, h2, h3, h4⟩ := linked64_sorted (sq := sq) (points := points) (boundaries := boundaries)
    (fun b h => (hb b h).nodup) (by
      intro b h seg hseg
      obtain ⟨m1, m2⟩ := segments_mem hseg
      exact (dist2F_ne_zero hs.err ((hb b h).double _ m1) ((hb b h).double _ m2) ((hb b h).apart seg hseg)).ne') hp hd (by
      intro q hq
      obtain ⟨b, h, seg, hseg, hnear⟩ := hn q hq
      exact ⟨b, h, seg, hseg, (near64_of hs.err hM hM2 (hb b h) (hpd q hq) hseg).1 hnear⟩)
  refine ⟨lps, owner, blocks, h1, h2, h3, ?_⟩
  refine forall₂_imp_mem h4 ?_
  rintro ⟨b, bl⟩ hm lp ⟨g1, g2, g3⟩
  have hbm := (List.of_mem_zip hm).1
  have hblm := (List.of_mem_zip hm).2
  refine ⟨g1, g2, forall₂_imp_both g3 ?_⟩
  intro seg ps hseg hps ⟨k1, k2⟩
  have hin : ∀ q ∈ ps, q ∈ points := fun q hq =>
    h2.mem_iff.mp (List.mem_flatten.mpr ⟨ps, List.mem_flatten.mpr ⟨bl, hblm, hps⟩, hq⟩)
  exact ⟨sorted64_upTo hs ((hb b hbm).double _ (segments_mem hseg).1).1 (fun q hq => (hpd q (hin q hq)).1) k1,
    fun q hq => (near64_of hs.err hM hM2 (hb b hbm) (hpd q (hin q hq)) hseg).2 (k2 q hq)⟩

/-- C145.  A zigzag over one boundary in floating point, as `C145_sorted_partial` and `C145_route` together: the operation succeeds with one
path that cuts every scanline once and links them along the boundary with the scanline ends inserted in their order. -/
theorem C145_zigzag_partial {sq : ℚ → ℚ} (hs : SquaresWell sq) {M : ℚ} (hM : 1 ≤ M) (hM2 : M ≤ 10 ^ 6) (eng : ScanClipper) {poly : List Pt}
    {toolDiameter stepover : ℚ} {scanlines templates : List (Pt × Pt)}
    (ht : scanTemplates64 eng [poly] toolDiameter stepover = .ok templates) (hc : eng.clip [poly] templates = .ok scanlines)
    (hne : scanlines ≠ []) (hb : BoundaryOK64 M poly) (hp : (lineEnds scanlines).Nodup)
    (hpd : ∀ q ∈ lineEnds scanlines, (IsDouble q.x ∧ IsDouble q.y) ∧ |q.x| ≤ 2 * M ∧ |q.y| ≤ 2 * M)
    (hd : ∀ q ∈ lineEnds scanlines, q ∉ poly)
    (hn : ∀ q ∈ lineEnds scanlines, ∃ seg ∈ segments poly, NearWithin (9 / 10 ^ 8) seg q) :
    ∃ blocks lines path, zigzag64 sq eng [poly] toolDiameter stepover = .ok [path] ∧ blocks.flatten.Perm (lineEnds scanlines) ∧
      List.Forall₂ (fun seg ps => SortedUpTo seg.1 ps ∧ ∀ q ∈ ps, NearWithin (11 / 10 ^ 8) seg q) (segments poly) blocks ∧
      CutsLines (weave poly blocks) lines path ∧ SameLines lines scanlines := by
  obtain ⟨lps, owner, blocks, h1, h2, h3, h4⟩ := C145_sorted_partial hs hM hM2 (points := scanpoints scanlines) (boundaries := [poly])
    (by simpa using hb) hp hpd (by simpa [scanpoints_eq] using hd) (by
      intro q hq
      obtain ⟨seg, hs, hq⟩ := hn q hq
      exact ⟨poly, by simp, seg, hs, hq⟩)
  obtain ⟨lp, lines, path, rfl, -, -, r1, r2, r3⟩ := C145_route hne h1
  obtain ⟨bl, rfl⟩ := List.length_eq_one_iff.mp h3
  simp only [List.zip_cons_cons, List.zip_nil_right] at h4
  cases h4 with
  | cons h _ =>
    refine ⟨bl, lines, path, ?_, by simpa [scanpoints_eq] using h2, h.2.2, h.1 ▸ r2, r3⟩
    unfold zigzag64
    simp only [ht, hc, h1, ok_bind, r1]

/-! ### Examples -/

/-- The hypotheses of `C145_zigzag_partial` hold for three scanlines in a trapezium; `pow` is rounded exactly here. -/
example : ∃ blocks lines path, zigzag64 (fun x => b64 (x * x)) zigEngine [zigPoly] 2 (1 / 2) = .ok [path] ∧
    blocks.flatten.Perm (lineEnds zigLines) ∧
      List.Forall₂ (fun seg ps => SortedUpTo seg.1 ps ∧ ∀ q ∈ ps, NearWithin (11 / 10 ^ 8) seg q) (segments zigPoly) blocks ∧
      CutsLines (weave zigPoly blocks) lines path ∧ SameLines lines zigLines := by
  have dbl : ∀ {k : ℚ}, (2 * k).den = 1 ∧ |(2 * k).num| ≤ 100 → IsDouble k := by
    rintro k ⟨hn, hb⟩
    refine ⟨(2 * k).num, -1, lt_of_le_of_lt hb (by norm_num), by norm_num, ?_⟩
    rw [(Rat.den_eq_one_iff _).mp hn]
    norm_num
    ring
  obtain ⟨ts, hts⟩ : ∃ ts, scanTemplates64 zigEngine [zigPoly] 2 (1 / 2) = .ok ts := by
    cases h : scanTemplates64 zigEngine [zigPoly] 2 (1 / 2) with
    | ok ts => exact ⟨ts, rfl⟩
    | error e =>
      have : (match scanTemplates64 zigEngine [zigPoly] 2 (1 / 2) with | .ok _ => true | .error _ => false) = true := by decide +kernel
      rw [h] at this
      cases this
  refine C145_zigzag_partial squaresWell_b64 (M := 16) (by norm_num) (by norm_num) zigEngine hts rfl (by decide)
    ⟨by decide +kernel, ?_, ?_⟩ (by decide +kernel) ?_ (by decide +kernel) ?_
  · intro p hp
    simp only [zigPoly, List.mem_cons, List.not_mem_nil, or_false] at hp
    rcases hp with rfl | rfl | rfl | rfl <;>
      exact ⟨⟨dbl (by decide +kernel), dbl (by decide +kernel)⟩, by norm_num, by norm_num⟩
  · have h1 : (2 : ℚ) ^ (-500 : ℤ) ≤ 1 := zpow_le_one_of_nonpos₀ (by norm_num) (by norm_num)
    intro s hs
    simp only [zigPoly, segments, List.mem_cons, List.not_mem_nil, or_false] at hs
    rcases hs with rfl | rfl | rfl
    · right; exact h1.trans (by norm_num)
    · left; exact h1.trans (by norm_num)
    · left; exact h1.trans (by norm_num)
  · intro q hq
    simp only [lineEnds, zigLines, List.flatMap_cons, List.flatMap_nil, List.cons_append, List.nil_append, List.append_nil,
      List.mem_cons, List.not_mem_nil, or_false] at hq
    rcases hq with rfl | rfl | rfl | rfl | rfl | rfl <;>
      exact ⟨⟨dbl (by decide +kernel), dbl (by decide +kernel)⟩, by norm_num, by norm_num⟩
  · intro q hq
    simp only [lineEnds, zigLines, List.flatMap_cons, List.flatMap_nil, List.cons_append, List.nil_append, List.append_nil,
      List.mem_cons, List.not_mem_nil, or_false] at hq
    rcases hq with rfl | rfl | rfl | rfl | rfl | rfl
    · exact ⟨(⟨2, 4⟩, ⟨0, 0⟩), by decide +kernel, ⟨⟨1/2, 1⟩, ⟨3/4, by norm_num, by norm_num, by decide +kernel⟩, by decide +kernel⟩⟩
    · exact ⟨(⟨10, 0⟩, ⟨10, 4⟩), by decide +kernel, ⟨⟨10, 1⟩, ⟨1/4, by norm_num, by norm_num, by decide +kernel⟩, by decide +kernel⟩⟩
    · exact ⟨(⟨10, 0⟩, ⟨10, 4⟩), by decide +kernel, ⟨⟨10, 2⟩, ⟨1/2, by norm_num, by norm_num, by decide +kernel⟩, by decide +kernel⟩⟩
    · exact ⟨(⟨2, 4⟩, ⟨0, 0⟩), by decide +kernel, ⟨⟨1, 2⟩, ⟨1/2, by norm_num, by norm_num, by decide +kernel⟩, by decide +kernel⟩⟩
    · exact ⟨(⟨2, 4⟩, ⟨0, 0⟩), by decide +kernel, ⟨⟨3/2, 3⟩, ⟨1/4, by norm_num, by norm_num, by decide +kernel⟩, by decide +kernel⟩⟩
    · exact ⟨(⟨10, 0⟩, ⟨10, 4⟩), by decide +kernel, ⟨⟨10, 3⟩, ⟨3/4, by norm_num, by norm_num, by decide +kernel⟩, by decide +kernel⟩⟩

/-- The path found for it. -/
example : (match zigzag64 (fun x => b64 (x * x)) zigEngine [zigPoly] 2 (1 / 2) with
    | .ok ps => decide (ps = [[⟨1/2, 1⟩, ⟨10, 1⟩, ⟨10, 2⟩, ⟨1, 2⟩, ⟨3/2, 3⟩, ⟨10, 3⟩]])
    | .error _ => false) = true := by decide +kernel

/-- Routing over two boundaries, for `C145_several`. -/
example : (match zigzag64 (fun x => b64 (x * x)) (towerEngine 2 3) [tower 0, tower 10] 2 (1 / 2) with
    | .ok ps => decide (ps = [[⟨0, 2⟩, ⟨1, 2⟩, ⟨1, 3⟩, ⟨0, 3⟩], [⟨10, 2⟩, ⟨11, 2⟩, ⟨11, 3⟩, ⟨10, 3⟩]])
    | .error _ => false) = true := by decide +kernel

/-- C145 fails on the segment from the last vertex to the first, as C61 does: scanline ends on it make the operation crash. -/
theorem C145_violated : ∃ (eng : ScanClipper) (poly : List Pt) (scanlines : List (Pt × Pt)),
    (∀ ts, eng.clip [poly] ts = .ok scanlines) ∧ (lineEnds scanlines).Nodup ∧
      (∀ q ∈ lineEnds scanlines, q ∉ poly ∧ ∃ seg ∈ segments (poly ++ poly.take 1), OnSegment seg.1 seg.2 q) ∧
      zigzag64 (fun x => b64 (x * x)) eng [poly] 2 (1 / 2) = .error .assertionError := by
  refine ⟨⟨fun _ => (0, 0, 4, 4), fun _ => 6, fun _ _ => .ok [(⟨0, 1⟩, ⟨4, 1⟩), (⟨0, 2⟩, ⟨4, 2⟩)]⟩, openSquare,
    [(⟨0, 1⟩, ⟨4, 1⟩), (⟨0, 2⟩, ⟨4, 2⟩)], fun _ => rfl, by decide +kernel, ?_, ?_⟩
  · intro q hq
    simp only [lineEnds, List.flatMap_cons, List.flatMap_nil, List.cons_append, List.nil_append, List.append_nil,
      List.mem_cons, List.not_mem_nil, or_false] at hq
    rcases hq with rfl | rfl | rfl | rfl
    · exact ⟨by decide +kernel, (⟨0, 4⟩, ⟨0, 0⟩), by decide +kernel, 3/4, by norm_num, by norm_num, by decide +kernel⟩
    · exact ⟨by decide +kernel, (⟨4, 0⟩, ⟨4, 4⟩), by decide +kernel, 1/4, by norm_num, by norm_num, by decide +kernel⟩
    · exact ⟨by decide +kernel, (⟨0, 4⟩, ⟨0, 0⟩), by decide +kernel, 1/2, by norm_num, by norm_num, by decide +kernel⟩
    · exact ⟨by decide +kernel, (⟨4, 0⟩, ⟨4, 4⟩), by decide +kernel, 1/2, by norm_num, by norm_num, by decide +kernel⟩
  · decide +kernel

end CQ
