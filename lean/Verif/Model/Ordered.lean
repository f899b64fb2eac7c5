import Verif.Model.Request

/-
`AssertSorted` over the ordered collections of std, as its documentation uses it (request.rs l.47-53:
`BTreeMap::from_iter(..)`, `AssertSorted::new(&request)`). The collections are modelled by the contract
of `std::collections::btree_map`: the entries, each key once, in the order of `Ord for K` (`cmp`). How the
nodes of the tree are laid out is left out.
-/

namespace OAuth

/-- The entries of a `BTreeMap<K, V>`, in the order `iter` yields them. -/
abbrev OrderedMap (K V : Type) := List (K × V)

namespace OrderedMap

variable {K V : Type} (cmp : K → K → Ordering)

/-- std `BTreeMap::insert`: "if the map did have this key present, the value is updated [..]. The key is not
updated, though". -/
def insert (k : K) (v : V) : OrderedMap K V → OrderedMap K V
  | [] => [(k, v)]
  | e :: rest =>
    match cmp k e.1 with
    | .lt => (k, v) :: e :: rest
    | .eq => (e.1, v) :: rest
    | .gt => e :: insert k v rest

/-- std `BTreeMap::remove`. -/
def remove (k : K) : OrderedMap K V → OrderedMap K V
  | [] => []
  | e :: rest =>
    match cmp k e.1 with
    | .lt => e :: rest
    | .eq => rest
    | .gt => e :: remove k rest

/-- One pair of std `BTreeMap::from_iter`, which sorts the pairs by key (stably) and of pairs with equal keys
takes the last, with its key. -/
def put (k : K) (v : V) : OrderedMap K V → OrderedMap K V
  | [] => [(k, v)]
  | e :: rest =>
    match cmp k e.1 with
    | .lt => (k, v) :: e :: rest
    | .eq => (k, v) :: rest
    | .gt => e :: put k v rest

/-- std `FromIterator<(K, V)> for BTreeMap<K, V>` (request.rs l.49). -/
def fromIter (l : List (K × V)) : OrderedMap K V := l.foldl (fun m e => put cmp e.1 e.2 m) []

/-- std `Extend<(K, V)> for BTreeMap<K, V>`: `insert` for each. -/
def extend (m : OrderedMap K V) (l : List (K × V)) : OrderedMap K V :=
  l.foldl (fun m e => insert cmp e.1 e.2 m) m

/-- request.rs l.121-129 and l.132-160: `AssertSorted::new(&map)` as a request, with `AsRef<str>` of keys and
`Display` of values. -/
def request (cfg : Cfg) (asRef : K → Bytes) (display : V → Display) (m : OrderedMap K V) : Request :=
  AssertSorted.request cfg (m.map fun e => (asRef e.1, display e.2))

end OrderedMap

/-- core: `Ord for (K, V)`. -/
def cmpTuple {K V : Type} (cmpK : K → K → Ordering) (cmpV : V → V → Ordering) (a b : K × V) : Ordering :=
  (cmpK a.1 b.1).then (cmpV a.2 b.2)

/-- request.rs l.121-129 and l.132-160: `AssertSorted::new(set.iter().map(|(k, v)| (k, v)))` for a
`BTreeSet<(K, V)>`, which is a map to `()`. -/
def OrderedMap.setRequest {K V : Type} (cfg : Cfg) (asRef : K → Bytes) (display : V → Display)
    (m : OrderedMap (K × V) Unit) : Request :=
  AssertSorted.request cfg (m.map fun e => (asRef e.1.1, display e.1.2))

end OAuth
