import Verif.Model.Edge
import Verif.Model.Routers

/-!
# Model of `src/cq_cam/routers.py`: CAD edges and wires
-/

namespace CQ

/-- The answer of src/cq_cam/routers.py:99-112 `distance_to_wire` when the search succeeds: distance and nearest
vertex, or distance, nearest edge and the parameter on that edge. -/
inductive WireHit where
  | vertex (d : ℚ) (v : Vec)
  | edge (d : ℚ) (e : Edge) (p : ℚ)

def WireHit.dist : WireHit → ℚ
  | .vertex d _ => d
  | .edge d _ _ => d

def WireHit.param : WireHit → Option ℚ
  | .vertex _ _ => none
  | .edge _ _ p => some p

/-- src/cq_cam/routers.py:115-127 `shift_edges`.  `veq` is cadquery's tolerant `==` on vectors. -/
def shiftEdges (veq : Vec → Vec → Bool) (edges : List Edge) (h : WireHit) : Except Err (List Edge) :=
  let found := match h with
    | .edge _ e _ => edges.findIdx? (fun e' => e'.id = e.id)
    | .vertex _ v => edges.findIdx? (fun e' => veq (edgeStartPoint e') v)
  match found with
  | none => .error .valueError
  | some i => .ok (edges.drop i ++ edges.take i)

/-- The cuts src/cq_cam/routers.py:219-230 through interpolation points. -/
def cutsThroughPoints (feed : Option PyNum) : AddrVec → List Vec → List Motion
  | _, [] => []
  | pos, v :: vs => cutAbs (.fromVec v) (some pos) feed :: cutsThroughPoints feed (.fromVec v) vs

/-- `sp`, src/cq_cam/routers.py:140-144. -/
def routeStart (e : Edge) (startP : Option ℚ) : Vec := match startP with | none => edgeStartPoint e | some p => e.posParam p

/-- `ep`, src/cq_cam/routers.py:145. -/
def routeEnd (e : Edge) (endP : Option ℚ) : Vec := match endP with | none => edgeEndPoint e | some p => e.posParam p

/-- The commands for a circular edge, src/cq_cam/routers.py:153-208. -/
def routeArc (veq : Vec → Vec → Bool) (e : Edge) (startP endP : Option ℚ) (feed : Option PyNum) :
    Except Err (List Motion) :=
  let p0 := startP.getD (edgeStartParam e)
  let p1 := endP.getD (edgeEndParam e)
  let start := AddrVec.fromVec (routeStart e startP)
  let fin := AddrVec.fromVec (routeEnd e endP)
  let center := AddrVec.fromVec e.center
  match isArcClockwise2 e.normal e.reversed with
  | .error x => .error x
  | .ok clockwise =>
      let cmd := if clockwise then MKind.cw else MKind.ccw
      if e.closed then
        let at' := fun i : ℚ => AddrVec.fromVec (e.posParam (p0 + i * ((p1 - p0) / 4)))
        .ok [{ kind := cmd, start := AddrVec.fromVec (e.posParam p0), fin := at' 2, feed, center, mid := at' 1 },
             { kind := cmd, start := at' 2, fin, feed, center, mid := at' 3 }]
      else if veq (routeStart e startP) (routeEnd e endP) then .ok [cutAbs fin (some start) feed]
      else .ok [{ kind := cmd, start, fin, feed, center,
                  mid := AddrVec.fromVec (e.posParam (p0 + 1 * ((p1 - p0) / 2))) }]

/-- src/cq_cam/routers.py:130-235 `route_edge`: the commands and the end point. -/
def routeEdge (veq : Vec → Vec → Bool) (e : Edge) (precision : ℕ) (startP endP : Option ℚ) (feed : Option PyNum) :
    Except Err (List Motion × Vec) :=
  let start := AddrVec.fromVec (routeStart e startP)
  let fin := AddrVec.fromVec (routeEnd e endP)
  match e.geom with
  | .line => .ok ([cutAbs fin (some start) feed], routeEnd e endP)
  | .arc | .circle =>
      match routeArc veq e startP endP feed with
      | .error x => .error x
      | .ok cs => .ok (cs, routeEnd e endP)
  | .bspline | .spline | .offset =>
      .ok (cutsThroughPoints feed start (interpolateEdgeToVectors e precision), routeEnd e endP)
  | .other => .error .runtimeError

/-- Routing a list of whole edges: the rounds `edge_i > 0` of src/cq_cam/routers.py:291-308.  Returns the commands
and the last `end`. -/
def routeEdges (veq : Vec → Vec → Bool) (j : Job) : Vec → List Edge → Except Err (List Motion × Vec)
  | fin, [] => .ok ([], fin)
  | _, e :: es =>
      match routeEdge veq e j.precision none none (some j.feed) with
      | .error x => .error x
      | .ok (cs, fin) =>
          match routeEdges veq j fin es with
          | .error x => .error x
          | .ok (ds, fin') => .ok (cs ++ ds, fin')

/-- src/cq_cam/routers.py:269: `stepover and distance and distance <= stepover`. -/
def wireLink (stepover : Option ℚ) (h : Option WireHit) : Option WireHit :=
  match stepover, h with
  | some s, some h => if s ≠ 0 ∧ h.dist ≠ 0 ∧ h.dist ≤ s then some h else none
  | _, _ => none

/-- The entry into a wire, src/cq_cam/routers.py:269-288: the (shifted) edges and the commands. -/
def enterWire (veq : Vec → Vec → Bool) (j : Job) (stepover : Option ℚ) (hit : Option WireHit) (pos : AddrVec)
    (edges : List Edge) : Except Err (List Edge × List Motion) :=
  match wireLink stepover hit with
  | some h =>
      match shiftEdges veq edges h with
      | .error x => .error x
      | .ok edges =>
          match edges with
          | [] => .error .indexError
          | e :: es =>
              let start := match h.param with
                | none => edgeStartPoint e
                | some p => if p = 0 then edgeStartPoint e else e.posParam p
              .ok (e :: es, [cutAbs (.fromVec start) (some pos) (some j.feed)])
  | none =>
      match edges with
      | [] => .error .indexError
      | e :: es => .ok (e :: es, rapidTo pos (edgeStartPoint e) j.rapidHeight (some j.opSafeHeight) (some j.plungeFeed))

/-- One round of src/cq_cam/routers.py:250-316 for a wire with edges: the commands and the new
`previous_wire_end`.  `hit` is the result of `distance_to_wire` (`none` for the first wire or if the search
failed). -/
def routeWire (veq : Vec → Vec → Bool) (j : Job) (stepover : Option ℚ) (hit : Option WireHit) (pos : AddrVec)
    (edges : List Edge) : Except Err (List Motion × Vec) :=
  match enterWire veq j stepover hit pos edges with
  | .error x => .error x
  | .ok ([], _) => .error .indexError
  | .ok (e :: es, approach) =>
      let param := hit.bind WireHit.param
      match routeEdge veq e j.precision param none (some j.feed) with
      | .error x => .error x
      | .ok (first, fin) =>
          match routeEdges veq j fin es with
          | .error x => .error x
          | .ok (rest, fin) =>
              match param with
              | none => .ok (approach ++ first ++ rest, fin)
              | some p =>
                  if p = 0 then .ok (approach ++ first ++ rest, fin)
                  else
                    match routeEdge veq e j.precision none (some p) (some j.feed) with
                    | .error x => .error x
                    | .ok (last, fin) => .ok (approach ++ first ++ rest ++ last, fin)

/-- The loop src/cq_cam/routers.py:250-317; `acc` are the commands so far.  `search v wire` is `distance_to_wire`
(OpenCASCADE's extremum search).  A wire without edges makes the function return an empty list
(src/cq_cam/routers.py:256-257). -/
def routeWiresFrom (veq : Vec → Vec → Bool) (search : Vec → List Edge → Option WireHit) (j : Job)
    (stepover : Option ℚ) (acc : List Motion) : Option Vec → AddrVec → List (List Edge) → Except Err (List Motion)
  | _, _, [] => .ok acc
  | _, _, [] :: _ => .ok []
  | pwe, pos, (e :: es) :: ws =>
      match routeWire veq j stepover (pwe.bind (search · (e :: es))) pos (e :: es) with
      | .error x => .error x
      | .ok (cs, fin) => routeWiresFrom veq search j stepover (acc ++ cs) (some fin) (lastFin pos cs) ws

/-- src/cq_cam/routers.py:238-317 `route_wires`.  A wire (or single edge) is given by its ordered edges. -/
def routeWires (veq : Vec → Vec → Bool) (search : Vec → List Edge → Option WireHit) (j : Job)
    (wires : List (List Edge)) (stepover : Option ℚ := none) (previousPos : Option AddrVec := none) :
    Except Err (List Motion) :=
  routeWiresFrom veq search j stepover [] none (previousPos.getD {}) wires

end CQ
