import Verif.Model.Request
import Verif.Model.Recorder

/-
request/parameter_list.rs: the sorted parameter list. The type parameters `A` (an owned or borrowed
slice) and `P: Borrow<(K, V)>` are taken to be a list of pairs.
-/

namespace OAuth

/-- A pair of a key (`AsRef<str>`) and a displayable value. -/
abbrev Pair := Bytes × Display

/-- The contract of `slice::sort_unstable_by` (core) for comparison functions that are total orders:
the result is a sorted permutation of the input. Nothing else is assumed. -/
structure SortFn where
  run : {α : Type} → (α → α → Ordering) → List α → List α
  perm : ∀ {α : Type} (cmp : α → α → Ordering) (l : List α), (run cmp l).Perm l
  sorted : ∀ {α : Type} (cmp : α → α → Ordering) (l : List α),
    (∀ a b, (cmp a b).swap = cmp b a) →
    (∀ a b c, cmp a b ≠ .gt → cmp b c ≠ .gt → cmp a c ≠ .gt) →
    (run cmp l).Pairwise (fun a b => cmp a b ≠ .gt)

namespace ParameterList

/-- request/parameter_list.rs l.233-245 `cmp`: keys first, then displayed values (`fmt_cmp::Cmp`). -/
def cmp (l r : Pair) : Ordering := (cmpBytes l.1 r.1).then (fmtCmp l.2 r.2)

/-- request/parameter_list.rs l.249-256 `is_sorted_by`: `slice.windows(2).all(..)`. -/
def isSortedBy {α : Type} (cmp : α → α → Ordering) : List α → Bool
  | a :: b :: rest => (cmp b a != .lt) && isSortedBy cmp (b :: rest)
  | _ => true

/-- request/parameter_list.rs l.61-70 `from_sorted`. -/
def fromSorted (list : List Pair) : Option (List Pair) :=
  if isSortedBy cmp list then some list else none

/-- request/parameter_list.rs l.107-109 `sort`. -/
def sort (srt : SortFn) (list : List Pair) : List Pair := srt.run cmp list

/-- request/parameter_list.rs l.83-90 `new`; also l.157-159 `From<A>` and l.169-174 `FromIterator`. -/
def new (srt : SortFn) (list : List Pair) : List Pair := sort srt list

/-- request/parameter_list.rs l.142-147 `Default`. -/
def default : List Pair := []

/-- request/parameter_list.rs l.184-190 `extend`. -/
def extend (srt : SortFn) (list : List Pair) (iter : List Pair) : List Pair :=
  sort srt (list ++ iter)

/-- request/parameter_list.rs l.200-219 `Request for ParameterList`. -/
def request (cfg : Cfg) (list : List Pair) : Request :=
  AssertSorted.request cfg (list.map fun pair => (pair.1, pair.2))

end ParameterList
end OAuth
