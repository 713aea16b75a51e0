import Verif.Proofs.Words

/-! The text of each command, read by the specification's interpreter, has the intended effect. -/

namespace CQ

/-- Optional lettered value. -/
def optP (l : Char) (a : Option ℚ) : List (Char × ℚ) := (a.map (fun q => (l, q))).toList

/-- Words of a plain word. -/
def plainToks (l : Char) (a : Option PyNum) : List (Char × Text) := (a.map (fun n => (l, n.str))).toList

theorem plainWord_lineOf {l : Char} {a : Option PyNum} (hl : isLetter l = true ∧ l.toUpper = l)
    (ha : ∀ n, a = some n → NumOK n) : LineOf (plainWord l a) (plainToks l a) := by
  rcases a with _ | n
  · exact LineOf.nil
  · exact LineOf.word (w := (l, n.str)) ⟨hl.1, hl.2, numChars_of_readDec (ha n rfl)⟩

theorem parseWords_plainToks {l : Char} {a : Option PyNum} {ws : List (Char × Text)} {b : Block}
    (hG : l ≠ 'G') (hM : l ≠ 'M') (ha : ∀ n, a = some n → NumOK n) (hb : parseWords ws = some b) :
    parseWords (plainToks l a ++ ws) = some { b with ps := optP l (a.map PyNum.value) ++ b.ps } := by
  rcases a with _ | n
  · simpa [plainToks, optP] using hb
  · have := ha n rfl
    unfold NumOK at this
    simp [plainToks, parseWords, hb, hG, hM, this, optP]

theorem parseWords_axis {l : Char} {a : Option ℚ} {ws : List (Char × Text)} {b : Block}
    (hG : l ≠ 'G') (hM : l ≠ 'M') (ha : ∀ q, a = some q → DoubleLike q)
    (hb : parseWords ws = some b) :
    parseWords (axisToks 3 l a ++ ws) = some { b with ps := optP l (a.map (rnd 3)) ++ b.ps } := by
  rw [parseWords_axisToks (by norm_num) hG hM ha hb]
  rcases a with _ | q <;> rfl

/-- A fixed word. -/
theorem lineOf_code {l : Char} {n : Text} (hl : isLetter l = true ∧ l.toUpper = l)
    (hn : ∀ c ∈ n, isNumChar c = true) : LineOf (l :: n) [(l, n)] := LineOf.word (w := (l, n)) ⟨hl.1, hl.2, hn⟩

/-- The number text of a path code. -/
def PathCode.num : PathCode → Text
  | .rapid => ['0'] | .linear => ['1'] | .arcCW => ['2'] | .arcCCW => ['3']

theorem pathCode_lineOf (k : PathCode) : LineOf k.str [('G', k.num)] := by
  cases k <;> exact lineOf_code (by decide) (by decide)

theorem xyz_lineOf {e : AddrVec} (he : DoubleVec e) :
    LineOf (xyzText e) (axisToks 3 'X' e.x ++ axisToks 3 'Y' e.y ++ axisToks 3 'Z' e.z) :=
  axisGroup_lineOf (axisWord_lineOf (l := 'X') (by norm_num) (by decide) he.1)
    (axisWord_lineOf (l := 'Y') (by norm_num) (by decide) he.2.1)
    (axisWord_lineOf (l := 'Z') (by norm_num) (by decide) he.2.2)

theorem ijk_lineOf {v : Vec} (hx : DoubleLike v.x) (hy : DoubleLike v.y) (hz : DoubleLike v.z) :
    LineOf (ijkText v) (axisToks 3 'I' (some v.x) ++ axisToks 3 'J' (some v.y) ++ axisToks 3 'K' (some v.z)) :=
  axisGroup_lineOf (axisWord_lineOf (l := 'I') (by norm_num) (by decide) (by rintro q ⟨⟩; exact hx))
    (axisWord_lineOf (l := 'J') (by norm_num) (by decide) (by rintro q ⟨⟩; exact hy))
    (axisWord_lineOf (l := 'K') (by norm_num) (by decide) (by rintro q ⟨⟩; exact hz))

theorem joinSpace_two (a b : Text) : joinSpace [a, b] = a ++ ' ' :: b := rfl
theorem joinSpace_three (a b c : Text) : joinSpace [a, b, c] = a ++ ' ' :: (b ++ ' ' :: c) := rfl
theorem joinSpace_four (a b c d : Text) :
    joinSpace [a, b, c, d] = a ++ ' ' :: (b ++ ' ' :: (c ++ ' ' :: d)) := rfl

/-- Code number (tenths) of a motion. -/
def PathCode.k : PathCode → ℕ
  | .rapid => 0 | .linear => 10 | .arcCW => 20 | .arcCCW => 30

theorem parseWords_path (k : PathCode) {ws : List (Char × Text)} {b : Block} (hb : parseWords ws = some b) :
    parseWords (('G', k.num) :: ws) = some { b with gs := k.k :: b.gs } := by
  cases k <;> simp [parseWords, hb, PathCode.num, PathCode.k] <;> rfl

/-- The block of a straight move. -/
theorem read_straight {k : PathCode} {e : AddrVec} {f : Option PyNum} {t : Text} (he : DoubleVec e)
    (hf : ∀ n, f = some n → NumOK n)
    (ht : t = joinSpace [k.str, xyzText e] ∧ f = none ∨
      t = joinSpace [k.str, xyzText e, plainWord 'F' f] ∧ f ≠ none) :
    LineOf t (('G', k.num) :: (axisToks 3 'X' e.x ++ (axisToks 3 'Y' e.y ++ (axisToks 3 'Z' e.z
      ++ (plainToks 'F' f ++ []))))) := by
  rcases ht with ⟨rfl, rfl⟩ | ⟨rfl, -⟩
  · have h := (pathCode_lineOf k).append (xyz_lineOf he).space
    rw [joinSpace_two]
    simpa [plainToks] using h
  · have h := (pathCode_lineOf k).append
      ((xyz_lineOf he).append (plainWord_lineOf (l := 'F') (by decide) hf).space).space
    rw [joinSpace_three]
    simpa using h

theorem parse_straight {k : PathCode} {e : AddrVec} {f : Option PyNum} (he : DoubleVec e)
    (hf : ∀ n, f = some n → NumOK n) :
    parseWords (('G', k.num) :: (axisToks 3 'X' e.x ++ (axisToks 3 'Y' e.y ++ (axisToks 3 'Z' e.z
      ++ (plainToks 'F' f ++ []))))) =
    some { gs := [k.k], ps := optP 'X' (e.x.map (rnd 3)) ++ (optP 'Y' (e.y.map (rnd 3))
      ++ (optP 'Z' (e.z.map (rnd 3)) ++ optP 'F' (f.map PyNum.value))) } := by
  have h4 := parseWords_plainToks (l := 'F') (ws := []) (b := {}) (by decide) (by decide) hf rfl
  have h3 := parseWords_axis (l := 'Z') (by decide) (by decide) he.2.2 h4
  have h2 := parseWords_axis (l := 'Y') (by decide) (by decide) he.2.1 h3
  have h1 := parseWords_axis (l := 'X') (by decide) (by decide) he.1 h2
  rw [parseWords_path k h1]
  simp

theorem parse_arc {k : PathCode} {e : AddrVec} {v : Vec} {f : Option PyNum} (he : DoubleVec e)
    (hx : DoubleLike v.x) (hy : DoubleLike v.y) (hz : DoubleLike v.z)
    (hf : ∀ n, f = some n → NumOK n) :
    parseWords (('G', k.num) :: (axisToks 3 'X' e.x ++ (axisToks 3 'Y' e.y ++ (axisToks 3 'Z' e.z
      ++ (axisToks 3 'I' (some v.x) ++ (axisToks 3 'J' (some v.y) ++ (axisToks 3 'K' (some v.z)
      ++ (plainToks 'F' f ++ [])))))))) =
    some { gs := [k.k], ps := optP 'X' (e.x.map (rnd 3)) ++ (optP 'Y' (e.y.map (rnd 3))
      ++ (optP 'Z' (e.z.map (rnd 3)) ++ (optP 'I' (some (rnd 3 v.x)) ++ (optP 'J' (some (rnd 3 v.y))
      ++ (optP 'K' (some (rnd 3 v.z)) ++ optP 'F' (f.map PyNum.value)))))) } := by
  have h4 := parseWords_plainToks (l := 'F') (ws := []) (b := {}) (by decide) (by decide) hf rfl
  have h5 := parseWords_axis (l := 'K') (a := some v.z) (by decide) (by decide) (by rintro q ⟨⟩; exact hz) h4
  have h6 := parseWords_axis (l := 'J') (a := some v.y) (by decide) (by decide) (by rintro q ⟨⟩; exact hy) h5
  have h7 := parseWords_axis (l := 'I') (a := some v.x) (by decide) (by decide) (by rintro q ⟨⟩; exact hx) h6
  have h3 := parseWords_axis (l := 'Z') (by decide) (by decide) he.2.2 h7
  have h2 := parseWords_axis (l := 'Y') (by decide) (by decide) he.2.1 h3
  have h1 := parseWords_axis (l := 'X') (by decide) (by decide) he.1 h2
  rw [parseWords_path k h1]
  simp

/-- Motion of a path code. -/
def PathCode.mot : PathCode → Mot
  | .rapid => .rapid | .linear => .linear | .arcCW => .cw | .arcCCW => .ccw

theorem axisTarget_abs (w c : Option ℚ) : axisTarget true w c = w.or c := by
  cases w <;> simp [axisTarget]

/-- Executing the block of a move in absolute mode. -/
theorem exec_move (m : Machine) (k : PathCode) (x y z i j c f : Option ℚ) (habs : m.absDist = true)
    (h1 : (k = .rapid ∨ k = .linear) → ¬ (x = none ∧ y = none ∧ z = none))
    (h2 : (k = .arcCW ∨ k = .arcCCW) → ¬ (i = none ∧ j = none ∧ c = none)) :
    execBlock m { gs := [k.k], ps := optP 'X' x ++ (optP 'Y' y ++ (optP 'Z' z ++ (optP 'I' i ++ (optP 'J' j
      ++ (optP 'K' c ++ optP 'F' f))))) } =
    some ({ m with feed := f.or m.feed, pos := ⟨x.or m.pos.x, y.or m.pos.y, z.or m.pos.z⟩,
                   motion := some k.mot },
      [⟨{ m with feed := f.or m.feed }, .move k.mot ⟨x.or m.pos.x, y.or m.pos.y, z.or m.pos.z⟩ ⟨i, j, c⟩⟩]) := by
  set b : Block := { gs := [k.k], ps := optP 'X' x ++ (optP 'Y' y ++ (optP 'Z' z ++ (optP 'I' i ++ (optP 'J' j
      ++ (optP 'K' c ++ optP 'F' f))))) } with hb
  have hgs : b.gs = [k.k] := rfl
  have hms : b.ms = [] := rfl
  have hvalid : b.valid = true := by
    rw [hb]
    cases k <;> cases x <;> cases y <;> cases z <;> cases i <;> cases j <;> cases c <;> cases f <;> rfl
  have gX : b.get 'X' = x := by
    rw [hb]; cases x <;> cases y <;> cases z <;> cases i <;> cases j <;> cases c <;> cases f <;> rfl
  have gY : b.get 'Y' = y := by
    rw [hb]; cases x <;> cases y <;> cases z <;> cases i <;> cases j <;> cases c <;> cases f <;> rfl
  have gZ : b.get 'Z' = z := by
    rw [hb]; cases x <;> cases y <;> cases z <;> cases i <;> cases j <;> cases c <;> cases f <;> rfl
  have gI : b.get 'I' = i := by
    rw [hb]; cases x <;> cases y <;> cases z <;> cases i <;> cases j <;> cases c <;> cases f <;> rfl
  have gJ : b.get 'J' = j := by
    rw [hb]; cases x <;> cases y <;> cases z <;> cases i <;> cases j <;> cases c <;> cases f <;> rfl
  have gK : b.get 'K' = c := by
    rw [hb]; cases x <;> cases y <;> cases z <;> cases i <;> cases j <;> cases c <;> cases f <;> rfl
  have gF : b.get 'F' = f := by
    rw [hb]; cases x <;> cases y <;> cases z <;> cases i <;> cases j <;> cases c <;> cases f <;> rfl
  have gS : b.get 'S' = none := by
    rw [hb]; cases x <;> cases y <;> cases z <;> cases i <;> cases j <;> cases c <;> cases f <;> rfl
  have gT : b.get 'T' = none := by
    rw [hb]; cases x <;> cases y <;> cases z <;> cases i <;> cases j <;> cases c <;> cases f <;> rfl
  have gH : b.get 'H' = none := by
    rw [hb]; cases x <;> cases y <;> cases z <;> cases i <;> cases j <;> cases c <;> cases f <;> rfl
  clear_value b
  have ga : ∀ m' : Machine, gApply none m' k.k = m' := by intro m'; cases k <;> rfl
  have hk : [k.k].findSome? motOf = some k.mot := by cases k <;> rfl
  have hnh : ¬ (280 ∈ b.gs ∨ 300 ∈ b.gs) := by rw [hgs]; cases k <;> decide
  unfold execBlock
  simp only [hvalid, if_true, gX, gY, gZ, gI, gJ, gK, gH]
  simp only [stage1, gF, gS, gT, Option.none_or, stage2, hms, List.not_mem_nil, if_false, List.foldl_nil, hgs,
    List.foldl_cons, ga]
  rw [stage3, if_neg hnh]
  simp only [stage4, hgs, hk, habs, axisTarget_abs]
  rw [if_neg, if_neg]
  · simp [stage5, hms]
  · rintro ⟨hkind, hc⟩
    refine h2 (by cases k <;> simp_all [PathCode.mot]) ?_
    simp [Pos.ext_iff] at hc; exact hc
  · rintro ⟨hkind, hc⟩
    refine h1 (by cases k <;> simp_all [PathCode.mot]) ?_
    simp [Pos.ext_iff] at hc; exact hc

theorem kind_code_mot (k : MKind) : k.code.mot = k.mot := by cases k <;> rfl

theorem plainWord_ne_nil {l : Char} {n : PyNum} : plainWord l (some n) ≠ [] := by simp [plainWord]

theorem execLine_of_lineOf {m : Machine} {t : Text} {ws : List (Char × Text)} {b : Block}
    (hl : LineOf t ws) (hp : parseWords ws = some b) (hb : b ≠ {}) (hend : m.ended = false) :
    runText m t = execBlock m b := by
  rw [runText_line hl.nl, execLine, hl.read, hp]
  simp [hb, hend]

/-- The text of a motion command has the intended effect. -/
theorem run_motion (m : Machine) (c : Motion) (hc : MotionOK c) (habs : m.absDist = true)
    (hend : m.ended = false) :
    ∃ t, c.str = .ok t ∧ runText m t = some (c.effect m) ∧ t ≠ [] := by
  obtain ⟨hfin, hfeed, haxes, harc⟩ := hc
  have hxyz : c.kind.isArc = false →
      ¬ (c.fin.x.map (rnd 3) = none ∧ c.fin.y.map (rnd 3) = none ∧ c.fin.z.map (rnd 3) = none) := by
    rintro hk ⟨h1, h2, h3⟩
    refine haxes hk ?_
    simp only [Option.map_eq_none_iff] at h1 h2 h3
    ext1 <;> assumption
  by_cases hk : c.kind.isArc = false
  · -- straight moves
    have key : ∀ (f : Option PyNum) (t : Text), (∀ n, f = some n → NumOK n) →
        (t = joinSpace [c.kind.code.str, xyzText c.fin] ∧ f = none ∨
          t = joinSpace [c.kind.code.str, xyzText c.fin, plainWord 'F' f] ∧ f ≠ none) →
        runText m t = some (
          { m with feed := (f.map PyNum.value).or m.feed, pos := reach c.fin m.pos, motion := some c.kind.mot },
          [⟨{ m with feed := (f.map PyNum.value).or m.feed }, .move c.kind.mot (reach c.fin m.pos) {}⟩])
          ∧ t ≠ [] := by
      intro f t hf ht
      refine ⟨?_, ?_⟩
      · have hl := read_straight (k := c.kind.code) hfin hf ht
        rw [execLine_of_lineOf hl (parse_straight hfin hf) (by simp) hend]
        have := exec_move m c.kind.code (c.fin.x.map (rnd 3)) (c.fin.y.map (rnd 3)) (c.fin.z.map (rnd 3))
          none none none (f.map PyNum.value) habs (fun _ => hxyz hk)
          (by intro h; exfalso; revert h hk; cases c.kind <;> simp [MKind.isArc, MKind.code])
        rw [kind_code_mot] at this
        simpa [optP, reach] using this
      · have : c.kind.code.str ≠ [] := by cases c.kind.code <;> simp [PathCode.str]
        rcases ht with ⟨rfl, -⟩ | ⟨rfl, -⟩
        · rw [joinSpace_two]; simp [this]
        · rw [joinSpace_three]; simp [this]
    by_cases hfk : c.kind.isFeed = true
    · -- cut
      have hstr : c.str = .ok (joinSpace ([c.kind.code.str, xyzText c.fin] ++
          (if plainWord 'F' c.feed ≠ [] then [plainWord 'F' c.feed] else []))) := by
        unfold Motion.str
        revert hk hfk; cases c.kind <;> simp [MKind.isArc, MKind.isFeed]
      refine ⟨_, hstr, ?_⟩
      have hr := key c.feed (joinSpace ([c.kind.code.str, xyzText c.fin] ++
          (if plainWord 'F' c.feed ≠ [] then [plainWord 'F' c.feed] else []))) hfeed (by
        rcases hcf : c.feed with _ | n
        · left; simp [plainWord]
        · right; simp [plainWord])
      refine ⟨?_, hr.2⟩
      rw [hr.1]
      simp [Motion.effect, withFeed, hfk, centreOff, hk]
    · have hstr : c.str = .ok (joinSpace [c.kind.code.str, xyzText c.fin]) := by
        unfold Motion.str
        revert hk hfk; cases c.kind <;> simp [MKind.isArc, MKind.isFeed]
      refine ⟨_, hstr, ?_⟩
      have hr := key none (joinSpace [c.kind.code.str, xyzText c.fin]) (by simp) (Or.inl ⟨rfl, rfl⟩)
      refine ⟨?_, hr.2⟩
      rw [hr.1]
      simp [Motion.effect, withFeed, hfk, centreOff, hk]
  · -- arcs
    have hk' : c.kind.isArc = true := by simpa using hk
    obtain ⟨ax, ay, az⟩ := harc hk'
    have haxis : ∀ (a s : Option ℚ), ArcAxisOK a s → relAxis a s = some (offAxis a s) ∧ DoubleLike (offAxis a s) := by
      intro a s h
      rcases a with _ | v
      · exact ⟨rfl, Or.inr ⟨0, by simp [offAxis]⟩⟩
      · obtain ⟨w, rfl, hd⟩ := h v rfl
        exact ⟨rfl, hd⟩
    obtain ⟨hx, dx⟩ := haxis _ _ ax
    obtain ⟨hy, dy⟩ := haxis _ _ ay
    obtain ⟨hz, dz⟩ := haxis _ _ az
    set v : Vec := ⟨offAxis c.center.x c.start.x, offAxis c.center.y c.start.y, offAxis c.center.z c.start.z⟩ with hv
    have hrel : c.center.toVecRel c.start = some v := by
      unfold AddrVec.toVecRel; rw [hx, hy, hz]
    have hstr : c.str = .ok (joinSpace ([c.kind.code.str, xyzText c.fin, ijkText v] ++
        (if plainWord 'F' c.feed ≠ [] then [plainWord 'F' c.feed] else []))) := by
      unfold Motion.str
      rw [hrel]
      revert hk'; cases c.kind <;> simp [MKind.isArc]
    refine ⟨_, hstr, ?_, ?_⟩
    · have hl : LineOf (joinSpace ([c.kind.code.str, xyzText c.fin, ijkText v] ++
        (if plainWord 'F' c.feed ≠ [] then [plainWord 'F' c.feed] else [])))
        (('G', c.kind.code.num) :: (axisToks 3 'X' c.fin.x ++ (axisToks 3 'Y' c.fin.y ++ (axisToks 3 'Z' c.fin.z
      ++ (axisToks 3 'I' (some v.x) ++ (axisToks 3 'J' (some v.y) ++ (axisToks 3 'K' (some v.z)
      ++ (plainToks 'F' c.feed ++ [])))))))) := by
        rcases hcf : c.feed with _ | n
        · have h := (pathCode_lineOf c.kind.code).append
            ((xyz_lineOf hfin).append (ijk_lineOf (v := v) dx dy dz).space).space
          simp only [plainWord, ne_eq, not_true_eq_false, if_false, List.append_nil]
          rw [joinSpace_three]
          simpa [plainToks] using h
        · have h := (pathCode_lineOf c.kind.code).append
            ((xyz_lineOf hfin).append ((ijk_lineOf (v := v) dx dy dz).append
              (plainWord_lineOf (l := 'F') (a := some n) (by decide) (by rw [← hcf]; exact hfeed)).space).space).space
          simp only [ne_eq, plainWord_ne_nil, not_false_eq_true, if_true, List.cons_append, List.nil_append]
          rw [joinSpace_four]
          simpa using h
      rw [execLine_of_lineOf hl (parse_arc hfin dx dy dz hfeed) (by simp) hend]
      have := exec_move m c.kind.code (c.fin.x.map (rnd 3)) (c.fin.y.map (rnd 3)) (c.fin.z.map (rnd 3))
          (some (rnd 3 v.x)) (some (rnd 3 v.y)) (some (rnd 3 v.z)) (c.feed.map PyNum.value) habs
          (by intro h; exfalso; revert h hk'; cases c.kind <;> simp [MKind.isArc, MKind.code])
          (by simp)
      rw [kind_code_mot] at this
      rw [this]
      have hfk : c.kind.isFeed = true := by revert hk'; cases c.kind <;> simp [MKind.isArc, MKind.isFeed]
      simp [Motion.effect, withFeed, hfk, centreOff, hk', reach, hv]
    · have : c.kind.code.str ≠ [] := by cases c.kind.code <;> simp [PathCode.str]
      intro h
      have h' := congrArg List.length h
      cases hcc : c.kind.code <;> rw [hcc] at h' <;> simp [joinSpace, PathCode.str] at h'

end CQ
