/-!
# ProximityClustering

Model of common/ProximityClustering.cc.  Coordinates, the mean position and the angular distance come
from aocommon (not in the repository): they are parameters.  The comparison of a distance with the
maximum distance is `close`.
-/

namespace DP3.Clustering

/-- The coordinates of the sources, `MeanPosition`, and `AngularDistance(..) < max_distance`:
ProximityClustering.cc:25-29, 37, 44-45, 55. -/
structure Geometry (P : Type) where
  pos : Nat → P
  mean : List P → P
  close : P → P → Bool

variable {P : Type}

/-- `Centroid` of a cluster: ProximityClustering.cc:31-38. -/
def centroid (g : Geometry P) (cluster : List Nat) : P := g.mean (cluster.map g.pos)

/-- `ClusterDistance(..) < max_distance`: ProximityClustering.cc:40-46, 55. -/
def near (g : Geometry P) (a b : List Nat) : Bool := g.close (centroid g a) (centroid g b)

/-- The loop body of `GroupSource` for one later cluster: ProximityClustering.cc:54-62. -/
def groupStep (g : Geometry P) (index : Nat) (source : List Nat) (new : List (List Nat))
    (cluster : List Nat) : List (List Nat) :=
  if near g source cluster then new.modify index (· ++ cluster) else new ++ [cluster]

/-- `GroupSource`; the index is inside the list: ProximityClustering.cc:48-64. -/
def groupSource (g : Geometry P) (index : Nat) (clusters : List (List Nat)) : List (List Nat) :=
  (clusters.drop (index + 1)).foldl (groupStep g index (clusters.getD index []))
    (clusters.take (index + 1))

/-- The while loop of `Group`; `fuel` bounds the number of iterations, see `group_spec`:
ProximityClustering.cc:73-78. -/
def groupLoop (g : Geometry P) : Nat → Nat → List (List Nat) → List (List Nat)
  | 0, _, clusters => clusters
  | fuel + 1, i, clusters =>
    if i < clusters.length then groupLoop g fuel (i + 1) (groupSource g i clusters) else clusters

/-- `Group` for `n` sources: ProximityClustering.cc:66-80. -/
def group (g : Geometry P) (n : Nat) : List (List Nat) :=
  groupLoop g n 0 ((List.range n).map fun i => [i])

end DP3.Clustering
