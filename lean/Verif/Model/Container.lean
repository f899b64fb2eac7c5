import Verif.Model.ParameterList

/-
request/parameter_list.rs over an arbitrary container `A` of elements `P: Borrow<(K, V)>`
(`Model/ParameterList` takes both to be plain).
-/

namespace OAuth

/-- What the impls of request/parameter_list.rs use of `A` and `P`. An impl that needs fewer traits
leaves the other fields unused. -/
structure Container (A P : Type) where
  /-- `Borrow<(K, V)> for P`, then `AsRef<str> for K`. -/
  borrow : P → Pair
  /-- `AsRef<[P]> for A`. -/
  asRef : A → List P
  /-- `AsMut<[P]> for A`: the container after the slice it lent was changed. -/
  asMut : (List P → List P) → A → A
  /-- `Extend<P> for A`. -/
  extend : A → List P → A
  /-- `FromIterator<P> for A`. -/
  fromIter : List P → A
  /-- `Default for A`. -/
  default : A

namespace Container

variable {A P : Type} (c : Container A P)

/-- request/parameter_list.rs l.233-245 `cmp`. -/
def cmp (l r : P) : Ordering := ParameterList.cmp (c.borrow l) (c.borrow r)

/-- request/parameter_list.rs l.61-70 `from_sorted`. -/
def fromSorted (list : A) : Option A :=
  if ParameterList.isSortedBy c.cmp (c.asRef list) then some list else none

/-- request/parameter_list.rs l.107-109 `sort`. -/
def sort (srt : SortFn) (list : A) : A := c.asMut (srt.run c.cmp) list

/-- request/parameter_list.rs l.83-90 `new`; also l.149-160 `From<A>`. -/
def new (srt : SortFn) (list : A) : A := c.sort srt list

/-- request/parameter_list.rs l.135-147 `Default`. -/
def defaultList : A := c.default

/-- request/parameter_list.rs l.162-175 `FromIterator<P>`. -/
def fromIterator (srt : SortFn) (iter : List P) : A := c.new srt (c.fromIter iter)

/-- request/parameter_list.rs l.177-191 `Extend<P>`. -/
def extendList (srt : SortFn) (list : A) (iter : List P) : A := c.sort srt (c.extend list iter)

/-- request/parameter_list.rs l.184-190 `extend` when the iterator panics after it yielded `yielded`: the
container has taken these (std: `Vec::extend`), `self.sort()` is not reached, and the list is seen again if
the panic is caught. -/
def extendUnwound (list : A) (yielded : List P) : A := c.extend list yielded

/-- request/parameter_list.rs l.184-190 `extend` when the `Display` of a value panics inside `self.sort()`:
std promises that all elements are still there, in some order (`shuffle` is any function that permutes). -/
def extendSortUnwound (shuffle : List P → List P) (list : A) (iter : List P) : A :=
  c.asMut shuffle (c.extend list iter)

/-- request/parameter_list.rs l.94-96 `into_inner`. -/
def intoInner (list : A) : A := list

/-- request/parameter_list.rs l.126-133 `AsRef<[P]>`. -/
def asSlice (list : A) : List P := c.asRef list

/-- request/parameter_list.rs l.112-124 `iter` and l.221-231 `Iterator for Iter`: all items. -/
def iter (list : A) : List Pair := (c.asRef list).map c.borrow

/-- request/parameter_list.rs l.193-219 `Request for ParameterList`. -/
def request (cfg : Cfg) (list : A) : Request :=
  AssertSorted.request cfg ((c.asRef list).map fun pair => ((c.borrow pair).1, (c.borrow pair).2))

end Container

/-- `Vec<(K, V)>`. -/
def Container.vec : Container (List Pair) Pair where
  borrow p := p
  asRef l := l
  asMut f l := f l
  extend l iter := l ++ iter
  fromIter iter := iter
  default := []

end OAuth
