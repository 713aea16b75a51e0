import Verif.Spec.Decimal

/-!
# Specification: an RS274/NGC (G-code) reader

Written from the language description (quoted by the project itself in src/cq_cam/command.py:25-63), not from
the printing code.  It defines what a text *means* for a machine: a text is split into lines, comments and
blanks are removed, words are read, and every line is executed on a machine state, producing the list of
actions together with the machine state in force at each action.

Deliberate choices: a `(` inside a comment and an unclosed comment are errors; an unknown letter, an unknown
G/M code, two codes of one modal group or a repeated letter in a line are errors; a straight move without any
axis word is an error; any non-blank line after the program end is an error.  `G30` moves all axes to a stored
position the program does not know, so the position is unknown afterwards.  `M6` stops the spindle.
`G50` (spindle speed clamp) is accepted and has no effect.
-/

namespace CQ

/-! ### characters, comments, words -/

/-- Letters. -/
def isLetter (c : Char) : Bool := ('A' ≤ c && c ≤ 'Z') || ('a' ≤ c && c ≤ 'z')

/-- Characters a number may consist of. -/
def isNumChar (c : Char) : Bool := isDig c || c == '.' || c == '-' || c == '+'

/-- Remove `( … )` comments. `inside` says whether we are within one. -/
def stripComments (inside : Bool) : Text → Option Text
  | [] => if inside then none else some []
  | c :: t =>
      if inside then
        if c = ')' then stripComments false t
        else if c = '(' then none
        else stripComments true t
      else
        if c = '(' then stripComments true t
        else if c = ')' then none
        else (stripComments false t).map (c :: ·)

/-- Blanks and tabs do not matter. -/
def dropBlanks (t : Text) : Text := t.filter (fun c => !(c == ' ' || c == '\t'))

/-- Read a line from the right: number characters collect until their letter is found. -/
def lexStep (c : Char) : Option (Text × List (Char × Text)) → Option (Text × List (Char × Text))
  | none => none
  | some (num, ws) =>
      if isLetter c then some ([], (c.toUpper, num) :: ws)
      else if isNumChar c then some (c :: num, ws)
      else none

/-- Split a line without comments and blanks into words (letter, number text). -/
def lexWords (t : Text) : Option (List (Char × Text)) :=
  match t.foldr lexStep (some ([], [])) with
  | some ([], ws) => some ws
  | _ => none

/-- Number of a G or M code in tenths: `G90` is 900, `G91.1` is 911. -/
def readCode (t : Text) : Option ℕ :=
  let ip := t.takeWhile isDig
  if ip = [] then none
  else match t.dropWhile isDig with
    | [] => some (10 * readNat ip)
    | ['.', d] => if isDig d then some (10 * readNat ip + digVal d) else none
    | _ => none

/-- A line of words: G codes, M codes and lettered values. -/
structure Block where
  gs : List ℕ := []
  ms : List ℕ := []
  ps : List (Char × ℚ) := []
deriving DecidableEq, Repr

/-- Read the words of a line. -/
def parseWords : List (Char × Text) → Option Block
  | [] => some {}
  | (c, num) :: ws =>
      match parseWords ws with
      | none => none
      | some b =>
          if c = 'G' then (readCode num).map (fun k => { b with gs := k :: b.gs })
          else if c = 'M' then (readCode num).map (fun k => { b with ms := k :: b.ms })
          else (readDec num).map (fun q => { b with ps := (c, q) :: b.ps })

/-! ### the machine -/

/-- Kinds of motion. -/
inductive Mot | rapid | linear | cw | ccw
deriving DecidableEq, Repr

inductive SPlane | xy | xz | yz
deriving DecidableEq, Repr

inductive Spin | off | cw | ccw
deriving DecidableEq, Repr

inductive FeedMode | inverse | perMinute | perRev
deriving DecidableEq, Repr

inductive RadComp | off | left | right
deriving DecidableEq, Repr

inductive Planner | exactPath | exactStop | continuous
deriving DecidableEq, Repr

/-- A position or the axis words of a line; `none` is unknown/absent. -/
@[ext] structure Pos where
  x : Option ℚ := none
  y : Option ℚ := none
  z : Option ℚ := none
deriving DecidableEq, Repr

/-- Machine state. -/
@[ext] structure Machine where
  pos : Pos := {}
  motion : Option Mot := none
  plane : SPlane := .xy
  absDist : Bool := true
  arcInc : Bool := true
  feedMode : FeedMode := .perMinute
  metric : Bool := true
  radComp : RadComp := .off
  lenOff : Option ℚ := none
  offset : ℕ := 1
  planner : Planner := .continuous
  feed : Option ℚ := none
  speed : Option ℚ := none
  spindle : Spin := .off
  mist : Bool := false
  flood : Bool := false
  tool : Option ℚ := none
  nextTool : Option ℚ := none
  ended : Bool := false
deriving DecidableEq, Repr

/-- What a line makes the machine do. -/
inductive Act where
  | move (kind : Mot) (target : Pos) (centre : Pos)
  | home
  | toolChange (n : ℚ)
  | pause
  | stop
deriving DecidableEq, Repr

/-- An action and the machine state in force when it starts (its `pos` is the start position). -/
structure Event where
  st : Machine
  act : Act
deriving DecidableEq, Repr

/-- Modal group of a G code; `none` for unknown codes. -/
def gGroup (k : ℕ) : Option ℕ :=
  if k = 280 ∨ k = 300 then some 0
  else if k = 0 ∨ k = 10 ∨ k = 20 ∨ k = 30 ∨ k = 800 then some 1
  else if k = 170 ∨ k = 180 ∨ k = 190 then some 2
  else if k = 900 ∨ k = 910 then some 3
  else if k = 901 ∨ k = 911 then some 4
  else if k = 930 ∨ k = 940 ∨ k = 950 then some 5
  else if k = 200 ∨ k = 210 then some 6
  else if k = 400 ∨ k = 410 ∨ k = 420 then some 7
  else if k = 430 ∨ k = 490 then some 8
  else if k = 540 ∨ k = 550 ∨ k = 560 ∨ k = 570 ∨ k = 580 ∨ k = 590 then some 12
  else if k = 610 ∨ k = 611 ∨ k = 640 then some 13
  else if k = 500 then some 14
  else none

/-- Modal group of an M code; `none` for unknown codes. -/
def mGroup (k : ℕ) : Option ℕ :=
  if k = 0 ∨ k = 10 ∨ k = 20 ∨ k = 300 then some 4
  else if k = 60 then some 6
  else if k = 30 ∨ k = 40 ∨ k = 50 then some 7
  else if k = 70 ∨ k = 80 ∨ k = 90 then some 8
  else none

/-- Value of a letter in a line. -/
def Block.get (b : Block) (c : Char) : Option ℚ := b.ps.lookup c

/-- The rules about which words may stand together in a line. -/
def Block.valid (b : Block) : Bool :=
  b.gs.all (fun k => (gGroup k).isSome) && b.ms.all (fun k => (mGroup k).isSome)
    && decide (b.gs.map gGroup).Nodup && decide (b.ms.map mGroup).Nodup
    && decide (b.ps.map Prod.fst).Nodup
    && b.ps.all (fun p => ['X', 'Y', 'Z', 'I', 'J', 'K', 'F', 'S', 'T', 'H'].contains p.1)

/-- M codes 3-5, 7-9. -/
def mApply (m : Machine) (k : ℕ) : Machine :=
  if k = 30 then { m with spindle := .cw }
  else if k = 40 then { m with spindle := .ccw }
  else if k = 50 then { m with spindle := .off }
  else if k = 70 then { m with mist := true }
  else if k = 80 then { m with flood := true }
  else if k = 90 then { m with mist := false, flood := false }
  else m

/-- Modal settings by G codes; `h` is the value of the `H` word. -/
def gApply (h : Option ℚ) (m : Machine) (k : ℕ) : Machine :=
  if k = 170 then { m with plane := .xy }
  else if k = 180 then { m with plane := .xz }
  else if k = 190 then { m with plane := .yz }
  else if k = 900 then { m with absDist := true }
  else if k = 910 then { m with absDist := false }
  else if k = 901 then { m with arcInc := false }
  else if k = 911 then { m with arcInc := true }
  else if k = 930 then { m with feedMode := .inverse }
  else if k = 940 then { m with feedMode := .perMinute }
  else if k = 950 then { m with feedMode := .perRev }
  else if k = 200 then { m with metric := false }
  else if k = 210 then { m with metric := true }
  else if k = 400 then { m with radComp := .off }
  else if k = 410 then { m with radComp := .left }
  else if k = 420 then { m with radComp := .right }
  else if k = 430 then { m with lenOff := h }
  else if k = 490 then { m with lenOff := none }
  else if k = 540 then { m with offset := 1 }
  else if k = 550 then { m with offset := 2 }
  else if k = 560 then { m with offset := 3 }
  else if k = 570 then { m with offset := 4 }
  else if k = 580 then { m with offset := 5 }
  else if k = 590 then { m with offset := 6 }
  else if k = 610 then { m with planner := .exactPath }
  else if k = 611 then { m with planner := .exactStop }
  else if k = 640 then { m with planner := .continuous }
  else if k = 800 then { m with motion := none }
  else m

/-- Motion selected by a G code. -/
def motOf (k : ℕ) : Option Mot :=
  if k = 0 then some .rapid
  else if k = 10 then some .linear
  else if k = 20 then some .cw
  else if k = 30 then some .ccw
  else none

/-- Coordinate reached on one axis. -/
def axisTarget (absDist : Bool) (word cur : Option ℚ) : Option ℚ :=
  match word with
  | none => cur
  | some w => if absDist then some w else cur.map (· + w)

/-- F, S and T words. -/
def stage1 (m : Machine) (b : Block) : Machine :=
  { m with
    feed := (b.get 'F').or m.feed
    speed := (b.get 'S').or m.speed
    nextTool := (b.get 'T').or m.nextTool }

/-- Tool change. -/
def stage2 (m : Machine) (b : Block) : Option (Machine × List Event) :=
  if 60 ∈ b.ms then
    match m.nextTool with
    | none => none
    | some n => some ({ m with tool := some n, spindle := .off }, [⟨m, .toolChange n⟩])
  else some (m, [])

/-- Homing. -/
def stage3 (m : Machine) (b : Block) (axes : Pos) : Option (Machine × List Event) :=
  if 280 ∈ b.gs ∨ 300 ∈ b.gs then
    if axes = {} then some ({ m with pos := {} }, [⟨m, .home⟩]) else none
  else some (m, [])

/-- Motion. -/
def stage4 (m : Machine) (b : Block) (axes centre : Pos) : Option (Machine × List Event) :=
  match b.gs.findSome? motOf with
  | some k =>
      if (k = .rapid ∨ k = .linear) ∧ axes = {} then none
      else if (k = .cw ∨ k = .ccw) ∧ centre = {} then none
      else
        let tgt : Pos := ⟨axisTarget m.absDist axes.x m.pos.x, axisTarget m.absDist axes.y m.pos.y,
          axisTarget m.absDist axes.z m.pos.z⟩
        some ({ m with pos := tgt, motion := some k }, [⟨m, .move k tgt centre⟩])
  | none =>
      if axes = {} then some (m, [])
      else match m.motion with
        | none => none
        | some k =>
            if (k = .cw ∨ k = .ccw) ∧ centre = {} then none
            else
              let tgt : Pos := ⟨axisTarget m.absDist axes.x m.pos.x,
                axisTarget m.absDist axes.y m.pos.y, axisTarget m.absDist axes.z m.pos.z⟩
              some ({ m with pos := tgt, motion := some k }, [⟨m, .move k tgt centre⟩])

/-- Stopping codes. -/
def stage5 (m : Machine) (b : Block) : Machine × List Event :=
  if 0 ∈ b.ms ∨ 10 ∈ b.ms then (m, [⟨m, .pause⟩])
  else if 20 ∈ b.ms ∨ 300 ∈ b.ms then ({ m with ended := true }, [⟨m, .stop⟩])
  else (m, [])

/-- Execute a line in the order of RS274/NGC (src/cq_cam/command.py:25-46). -/
def execBlock (m : Machine) (b : Block) : Option (Machine × List Event) :=
  if b.valid then
    let axes : Pos := ⟨b.get 'X', b.get 'Y', b.get 'Z'⟩
    let centre : Pos := ⟨b.get 'I', b.get 'J', b.get 'K'⟩
    match stage2 (stage1 m b) b with
    | none => none
    | some (m2, e2) =>
        match stage3 (b.gs.foldl (gApply (b.get 'H')) (b.ms.foldl mApply m2)) b axes with
        | none => none
        | some (m3, e3) =>
            match stage4 m3 b axes centre with
            | none => none
            | some (m4, e4) =>
                let r := stage5 m4 b
                some (r.1, e2 ++ e3 ++ e4 ++ r.2)
  else none

/-- Read a line: comments, blanks, words. -/
def readLine (t : Text) : Option Block :=
  match stripComments false t with
  | none => none
  | some s =>
      match lexWords (dropBlanks s) with
      | none => none
      | some ws => parseWords ws

/-- Execute a line of text. -/
def execLine (m : Machine) (t : Text) : Option (Machine × List Event) :=
  match readLine t with
  | none => none
  | some b => if b = {} then some (m, []) else if m.ended then none else execBlock m b

/-- Execute lines. -/
def runLines : Machine → List Text → Option (Machine × List Event)
  | m, [] => some (m, [])
  | m, l :: ls =>
      match execLine m l with
      | none => none
      | some (m1, e1) =>
          match runLines m1 ls with
          | none => none
          | some (m2, e2) => some (m2, e1 ++ e2)

/-- Split a text at newlines. -/
def splitLines : Text → List Text
  | [] => [[]]
  | c :: t =>
      if c = '\n' then [] :: splitLines t
      else match splitLines t with
        | [] => [[c]]
        | l :: ls => (c :: l) :: ls

/-- Run a program text on a machine: final state and actions, or `none` if the text is not a program
the machine accepts. -/
def runText (m : Machine) (t : Text) : Option (Machine × List Event) := runLines m (splitLines t)

end CQ
