import Verif.Spec.Toolpath
import Verif.Model.Drill

/-! # Specification: drilling -/

namespace CQ

/-- The points `vs` are the centres of the holes of an object: a point is its own centre; a wire has one; a face has one
for each inner wire, or that of its outer wire if there are no inner wires. -/
def HoleCentres (center : List Edge → Except Err Vec) : DrillObj → List Vec → Prop
  | .vector v, vs => vs = [v]
  | .wire w, vs => ∃ c, center w = .ok c ∧ vs = [c]
  | .face outer [], vs => ∃ c, center outer = .ok c ∧ vs = [c]
  | .face _ (i :: is), vs => List.Forall₂ (fun w c => center w = .ok c) (i :: is) vs
  | .other, _ => False

/-- Where the tool works its way into the material: the X and Y of the end points of the feed moves. -/
def workedAt (cs : List Motion) : List (Option ℚ × Option ℚ) :=
  (cs.filter (fun c => c.kind.mot ≠ .rapid)).map (fun c => (c.fin.x, c.fin.y))

/-- Each point is followed by one of the points nearest to it among those that are left. -/
def NearestOrder (ps : List Pt) : Prop :=
  ∀ pre a b post, ps = pre ++ a :: b :: post → ∀ q ∈ b :: post, sqDist a b ≤ sqDist a q

/-- The moves for one hole from the position `pos`: up to `sh`, sideways, down to the surface, and a feed move to
`depth`. -/
def HoleMoves (sh depth : ℚ) (feed : PyNum) (pos : AddrVec) (p : Pt) (cs : List Motion) : Prop :=
  ∃ up side down plunge, cs = [up, side, down, plunge] ∧
    (up.kind.mot = .rapid ∧ up.start = pos ∧ up.fin = ⟨pos.x, pos.y, some sh⟩) ∧
    (side.kind.mot = .rapid ∧ side.start = ⟨pos.x, pos.y, some sh⟩ ∧ side.fin = p.at sh) ∧
    (down.kind.mot = .rapid ∧ down.start = p.at sh ∧ down.fin = p.at 0) ∧
    (plunge.kind.mot = .linear ∧ plunge.start = p.at 0 ∧ plunge.fin = p.at depth ∧ plunge.feed = some feed)

/-- The moves for the holes `ps` in order, each beginning at the bottom of the hole before. -/
def HolesMoves (sh depth : ℚ) (feed : PyNum) : AddrVec → List Pt → List Motion → Prop
  | _, [], cs => cs = []
  | pos, p :: ps, cs => ∃ a b, cs = a ++ b ∧ HoleMoves sh depth feed pos p a ∧ HolesMoves sh depth feed (p.at depth) ps b

/-- Seen from above. -/
def Vec.xy (v : Vec) : Pt := ⟨v.x, v.y⟩

end CQ
