import Verif.Model.Cache

/-! # What C121 is about -/

namespace CQ

/-- All distances in the dictionary are right. -/
def RightDistances (c : DistCache) : Prop :=
  ∀ p q d, ((p, q), d) ∈ c → d = (p.x - q.x) * (p.x - q.x) + (p.y - q.y) * (p.y - q.y)

/-- The dictionary after some calls of a process that began with dictionary `c`. -/
def cacheAfter (ts : List ProcessCall) (c : DistCache) : DistCache := ts.foldl (fun c t => (t.run c).2) c

end CQ
