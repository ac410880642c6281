import Verif.Model.Num

/-!
# Model of `GraphElement` and `BasicGraphHandler` (graph_handler.py:15-69)

The objects live in a heap: an address stands for an object, so that identity is equality of addresses.  All objects
a program ever creates are in the heap from the start, without parent and children.  Values are compared by `==`, which
gives a truth value (for arrays of numbers `==` gives an array instead; not modelled).
-/

namespace Verif.Elements

variable {α : Type} [DecidableEq α]

/-- `GraphElement` (graph_handler.py:16-24). -/
structure Element (α : Type) where
  value : α
  parent : Option ℕ := none
  children : List ℕ := []

/-- The objects of the program, by address. -/
abbrev Heap (α : Type) := ℕ → Element α

/-- The elements `GraphElement(value)` before any call (graph_handler.py:22-24). -/
def fresh (values : ℕ → α) : Heap α := fun i => { value := values i }

/-- `number_of_children` (graph_handler.py:26-28). -/
def numberOfChildren (h : Heap α) (e : ℕ) : ℕ := (h e).children.length

/-- Assignment to the attribute `parent`. -/
def assignParent (h : Heap α) (c : ℕ) (p : Option ℕ) : Heap α := Function.update h c { h c with parent := p }

/-- Assignment to the attribute `children`, or a change of this list. -/
def assignChildren (h : Heap α) (p : ℕ) (cs : List ℕ) : Heap α := Function.update h p { h p with children := cs }

/-- `parent.add_child(child)` (graph_handler.py:30-32). -/
def addChild (h : Heap α) (parent child : ℕ) : Heap α :=
  assignParent (assignChildren h parent ((h parent).children ++ [child])) child (some parent)

/-- `child.set_parent(parent)` (graph_handler.py:34-36). -/
def setParent (h : Heap α) (child parent : ℕ) : Heap α :=
  let h1 := assignParent h child (some parent)
  assignChildren h1 parent ((h1 parent).children ++ [child])

/-- Comparison of the members of lists of equal length by `f`, until two differ. -/
def allEqual (f : ℕ → ℕ → Option Bool) : List ℕ → List ℕ → Option Bool
  | a :: as, b :: bs => do
    if ← f a b then allEqual f as bs else some false
  | _, _ => some true

/-- Comparison of two objects in a container: identity, then `==`. -/
def same (eq : ℕ → ℕ → Option Bool) (a b : ℕ) : Option Bool := if a = b then some true else eq a b

/-- `a == b` as generated by `@dataclass` (graph_handler.py:16): the tuples of value, parent and children are compared.
`none` is the RecursionError at the limit of the interpreter. -/
def elementEq (h : Heap α) : ℕ → ℕ → ℕ → Option Bool
  | 0, _, _ => none
  | limit + 1, a, b =>
    if (h a).value ≠ (h b).value then some false
    else do
      let parents ← match (h a).parent, (h b).parent with
        | none, none => some true
        | some p, some q => same (elementEq h limit) p q
        | _, _ => some false
      if parents then
        if (h a).children.length ≠ (h b).children.length then some false
        else allEqual (same (elementEq h limit)) (h a).children (h b).children
      else some false

/-- `list.remove(x)`: the first member which is `x` or equal to `x`; ValueError without such a member.  The
RecursionError of a comparison is `PyErr.exception`. -/
def pyRemove (h : Heap α) (limit : ℕ) (x : ℕ) : List ℕ → Except PyErr (List ℕ)
  | [] => .error .valueError
  | a :: as =>
    match same (elementEq h limit) a x with
    | none => .error .exception
    | some true => .ok as
    | some false => (pyRemove h limit x as).map (a :: ·)

/-- `element.expel()` (graph_handler.py:38-46); the changes before an exception stay. -/
def expel (limit : ℕ) (h : Heap α) (e : ℕ) : Heap α × Except PyErr Unit :=
  let h1 := (h e).children.foldl (fun h c => assignParent h c none) h
  match (h1 e).parent with
  | none => (h1, .ok ())
  | some p =>
    match pyRemove h1 limit e (h1 p).children with
    | .error er => (h1, .error er)
    | .ok cs => (assignChildren h1 p cs, .ok ())

/-- A call of a method of an element. -/
inductive Call where
  | addChild (parent child : ℕ)
  | setParent (child parent : ℕ)
  | expel (e : ℕ)

/-- One call. -/
def step (limit : ℕ) (h : Heap α) : Call → Heap α
  | .addChild p c => addChild h p c
  | .setParent c p => setParent h c p
  | .expel e => (expel limit h e).1

/-- A history of calls. -/
def run (limit : ℕ) (h : Heap α) (cs : List Call) : Heap α := cs.foldl (step limit) h

/-- `BasicGraphHandler` (graph_handler.py:49-52), with the objects of the program. -/
structure Handler (α : Type) where
  heap : Heap α
  root : Option ℕ := none
  graph : List ℕ := []

/-- A new object (graph_handler.py:60, 64) at the next free address, here the number of objects of the handler. -/
def Handler.create (s : Handler α) (value : α) (parent : Option ℕ) (address : ℕ) : Heap α :=
  Function.update s.heap address { value := value, parent := parent }

/-- The setter `root` (graph_handler.py:58-61); `address` is the address of the new object. -/
def Handler.setRoot (s : Handler α) (value : α) (address : ℕ) : Handler α :=
  { heap := s.create value none address, root := some address, graph := s.graph ++ [address] }

/-- `add_element_with_parent` (graph_handler.py:63-64). -/
def Handler.addElement (s : Handler α) (value : α) (parent : Option ℕ) (address : ℕ) : Handler α :=
  { s with heap := s.create value parent address, graph := s.graph ++ [address] }

/-- `delete_element` (graph_handler.py:66-69). -/
def Handler.deleteElement (limit : ℕ) (s : Handler α) (e : ℕ) : Handler α × Except PyErr Unit :=
  match expel limit s.heap e with
  | (h, .error er) => ({ s with heap := h }, .error er)
  | (h, .ok _) =>
    match pyRemove h limit e s.graph with
    | .error er => ({ s with heap := h }, .error er)
    | .ok g => ({ s with heap := h, graph := g }, .ok ())

/-- A call of a method of the handler. -/
inductive HandlerCall (α : Type) where
  | setRoot (value : α) (address : ℕ)
  | addElement (value : α) (parent : Option ℕ) (address : ℕ)
  | deleteElement (e : ℕ)

/-- One call. -/
def Handler.step (limit : ℕ) (s : Handler α) : HandlerCall α → Handler α
  | .setRoot v a => s.setRoot v a
  | .addElement v p a => s.addElement v p a
  | .deleteElement e => (s.deleteElement limit e).1

/-- A history of calls from the empty handler. -/
def Handler.run (limit : ℕ) (s : Handler α) (cs : List (HandlerCall α)) : Handler α := cs.foldl (Handler.step limit) s

end Verif.Elements
