import Mathlib.Data.List.Basic

/-!
# Description of a cluster

Model of `NodeDesc` (common/NodeDesc.cc) and `ClusterDesc` (common/ClusterDesc.cc): the file system of a file on a node, the
nodes of a cluster and the map from file systems to nodes. Parsets are left out. Maps are functions.
-/

namespace DP3.Cluster

/-- A name. -/
abbrev Name := List Char

/-- A file system of a node: its mount point and its name. -/
structure Mount where
  point : Name
  fs : Name
  deriving DecidableEq

/-- common/NodeDesc.cc:68-79: the number of parts of a mount point. -/
def nParts (m : Mount) : Nat := if m.point.length = 1 then 0 else m.point.count '/'

/-- common/NodeDesc.cc:65-83: the maximum number of parts. -/
def maxParts (ms : List Mount) : Nat := (ms.map nParts).foldr max 0

/-- The positions of the slashes, of which the first character has position `i`. -/
def slashes (i : Nat) : List Char → List Nat
  | [] => []
  | c :: cs => if c = '/' then i :: slashes (i + 1) cs else slashes (i + 1) cs

/-- common/NodeDesc.cc:84-91: the positions of the slashes in the file name, except the first character. -/
def positions (ms : List Mount) (file : Name) : List Nat := (slashes 1 file.tail).take (maxParts ms)

/-- common/NodeDesc.cc:92-101: the first mount point that is the longest possible part of the file name. -/
def search (ms : List Mount) (file : Name) : Option Mount :=
  (positions ms file).reverse.findSome? fun p => ms.find? fun m => decide (file.take p = m.point)

/-- common/NodeDesc.cc:60-108 findFileSys. -/
def findFileSys (ms : List Mount) (file : Name) : Name :=
  match search ms file with
  | some m => m.fs
  | none =>
    match (ms.filter fun m => decide (m.point.length = 1)).getLast? with
    | some m => m.fs
    | none => []

/-- common/NodeDesc.cc:48-58 addFileSys. `none`: an assertion fails. -/
def addFileSys (ms : List Mount) (fs point : Name) : Option (List Mount) :=
  let mp := if 5 < point.length ∧ point.take 5 = "/auto".toList then point.drop 5 else point
  if fs ≠ [] ∧ mp.head? = some '/' then some (ms ++ [⟨mp, fs⟩]) else none

/-- A node: its name and the names of its file systems. -/
structure Node where
  name : Name
  fs : List Name
  deriving DecidableEq

/-- The members of ClusterDesc, common/ClusterDesc.h:96-98. -/
structure Desc where
  nodes : List Node := []
  nodeMap : Name → Option Nat := fun _ => none
  fsNodes : Name → List Nat := fun _ => []

/-- common/ClusterDesc.cc:172-179 add2Map, the loop over the file systems of a node. -/
def addToMap (inx : Nat) : (Name → List Nat) → List Name → Name → List Nat
  | m, [] => m
  | m, f :: fs => addToMap inx (fun g => if g = f then m g ++ [inx] else m g) fs

/-- common/ClusterDesc.cc:156-170 addNode. `none`: an exception. -/
def addNode (d : Desc) (n : Node) (canExist : Bool) : Option Desc :=
  match d.nodeMap n.name with
  | some _ => if canExist then some d else none
  | none => some
    { nodes := d.nodes ++ [n]
      nodeMap := fun g => if g = n.name then some d.nodes.length else d.nodeMap g
      fsNodes := addToMap d.nodes.length d.fsNodes n.fs }

/-- Nodes that are added one after the other, as in common/ClusterDesc.cc:87-125 and 138-142. -/
def addNodes : Desc → List (Node × Bool) → Option Desc
  | d, [] => some d
  | d, x :: xs => (addNode d x.1 x.2).bind fun d' => addNodes d' xs

/-- common/ClusterDesc.cc:181-188 getNode. `none`: an exception. -/
def getNode (d : Desc) (name : Name) : Option Node := (d.nodeMap name).bind fun i => d.nodes[i]?

end DP3.Cluster
