import Verif.Mapped.Pointer.Model

/-
Specification of MappedPointerVector: a sequence of owned objects, each with its search terms.
-/
namespace Verif.Mapped.Pointer
open Verif.Mapped

/-- Calls of a client. -/
inductive Op (K V : Type) where
  | insertPtr (k : K) (x : Option V)         -- insert(k, std::make_unique<V>(x)) or insert(k, nullptr pointer)
  | insert (k : K) (x : V)                   -- insert(k, x)
  | insertNoKey (x : V)                      -- insert(no_search, x)
  | assignPtr (k : K) (x : Option V)         -- insert_or_assign(k, std::make_unique<V>(x)) or with a null pointer
  | assign (k : K) (x : V)                   -- insert_or_assign(k, x)
  | find (k : K)
  | get (i : Nat)                            -- mpv[i]
  | write (i : Nat) (x : V)                  -- *mpv[i] = x
  | back
  | addTerm (k : K) (i : Nat)                -- addSearchTermForIndex
  | removeIndex (i : Nat)
  | remove (k : K)
  | apply                                    -- the pointers passed to F
  | size
  | clear

/-- What the client sees; a pointer is null or an object and the value read through it. -/
inductive Obs (V : Type) where
  | done
  | index (i : Option Nat)
  | bool (b : Bool)
  | ptr (p : Option (Nat × V))
  | ptrs (ps : List (Option (Nat × V)))
  | num (n : Nat)
deriving DecidableEq

/-- An element: its object (name and value) or null, and its search terms. -/
structure Entry (K V : Type) where
  obj : Option (Nat × V)
  keys : List K
deriving DecidableEq

/-- `made`: number of objects made so far, which is the name of the next one. -/
structure Ideal (K V : Type) where
  entries : List (Entry K V)
  made : Nat
deriving DecidableEq

variable {K V : Type} [DecidableEq K]

/-- position of the element to which `k` is attached -/
def Ideal.lookup (a : Ideal K V) (k : K) : Option Nat := a.entries.findIdx? fun e => decide (k ∈ e.keys)

/-- number of objects made for an argument -/
def count : Option V → Nat
  | some _ => 1
  | none => 0

omit [DecidableEq K] in
/-- a new element at the end, with a new object (or null) -/
def Ideal.append (a : Ideal K V) (x : Option V) (ks : List K) : Ideal K V :=
  ⟨a.entries ++ [⟨x.map fun x => (a.made, x), ks⟩], a.made + count x⟩

omit [DecidableEq K] in
/-- element `i` gets a new object (or null) -/
def Ideal.assign (a : Ideal K V) (i : Nat) (x : Option V) : Ideal K V :=
  ⟨a.entries.modify i fun e => { e with obj := x.map fun x => (a.made, x) }, a.made + count x⟩

/-- One call: the whole intended behaviour.  `none`: the client writes through a null pointer, or takes `back()` of an
empty container. -/
def ideal (a : Ideal K V) : Op K V → Option (Ideal K V × Obs V)
  | .insertPtr k x => match a.lookup k with
    | some _ => some ({ a with made := a.made + count x }, .index none)
    | none => some (a.append x [k], .index (some a.entries.length))
  | .insert k x => match a.lookup k with
    | some _ => some (a, .index none)
    | none => some (a.append (some x) [k], .index (some a.entries.length))
  | .insertNoKey x => some (a.append (some x) [], .index (some a.entries.length))
  | .assignPtr k x => match a.lookup k with
    | some i => some (a.assign i x, .index (some i))
    | none => some (a.append x [k], .index (some a.entries.length))
  | .assign k x => match a.lookup k with
    | some i => some (a.assign i (some x), .index (some i))
    | none => some (a.append (some x) [k], .index (some a.entries.length))
  | .find k => some (a, .ptr ((a.entries.find? fun e => decide (k ∈ e.keys)).bind (·.obj)))
  | .get i => some (a, .ptr ((a.entries[i]?).bind (·.obj)))
  | .write i x => ((a.entries[i]?).bind (·.obj)).map fun p =>
      ({ a with entries := a.entries.modify i fun e => { e with obj := some (p.1, x) } }, .done)
  | .back => a.entries.getLast?.map fun e => (a, .ptr e.obj)
  | .addTerm k i =>
    if i < a.entries.length ∧ a.lookup k = none then
      some ({ a with entries := a.entries.modify i fun e => { e with keys := k :: e.keys } }, .bool true)
    else some (a, .bool false)
  | .removeIndex i => some ({ a with entries := a.entries.eraseIdx i }, .done)
  | .remove k => match a.lookup k with
    | some i => some ({ a with entries := a.entries.eraseIdx i }, .done)
    | none => some (a, .done)
  | .apply => some (a, .ptrs (a.entries.map (·.obj)))
  | .size => some (a, .num a.entries.length)
  | .clear => some ({ a with entries := [] }, .done)

/-- Calls the code handles; excluded are (1) removing an element that has several search terms, (2) removing by index an
element without search term, unless a default constructed search term has a determinate value that is not in use.
Each exclusion is witnessed in Props. -/
def careful (unset : Option K) (a : Ideal K V) : Op K V → Bool
  | .remove k => match a.entries.find? fun e => decide (k ∈ e.keys) with
    | some e => decide (e.keys.length = 1)
    | none => true
  | .removeIndex i => match a.entries[i]? with
    | some e => decide (e.keys.length = 1) ||
        (e.keys.isEmpty && (match unset with | some d => (a.lookup d).isNone | none => false))
    | none => true
  | _ => true

/-- The specification's run of a program. -/
def idealRun : Ideal K V → List (Op K V) → Option (Ideal K V × List (Obs V))
  | a, [] => some (a, [])
  | a, op :: ops => (ideal a op).bind fun r => (idealRun r.1 ops).map fun s => (s.1, r.2 :: s.2)

/-- All calls of the program are careful ones. -/
def carefulRun (unset : Option K) : Ideal K V → List (Op K V) → Bool
  | _, [] => true
  | a, op :: ops => careful unset a op &&
      (match ideal a op with | some r => carefulRun unset r.1 ops | none => false)

/-! ### Execution of the model -/

/-- The container and the heap. -/
structure World (K V : Type) where
  pv : PV K
  heap : Objs V

def World.init : World K V := ⟨⟨[], []⟩, Objs.empty⟩

/-- reading through several pointers -/
def readAll (h : Objs V) : List (Option Nat) → Option (List (Option (Nat × V)))
  | [] => some []
  | p :: ps => (h.read p).bind fun x => (readAll h ps).map fun xs => x :: xs

/-- One call on the modelled code; `none` is undefined behaviour. -/
def exec (I : MapImpl K) (unset : Option K) (w : World K V) : Op K V → Option (World K V × Obs V)
  | .insertPtr k x =>
    let o := w.heap.makeOpt x
    let r := w.pv.insertPtr I k o.2
    -- after a failure the client's temporary still owns the object and is destroyed
    (if r.2.isSome then some o.1 else o.1.delete o.2).map fun h => (⟨r.1, h⟩, .index r.2)
  | .insert k x =>
    let r := w.pv.insert I w.heap k x
    some (⟨r.1, r.2.1⟩, .index r.2.2)
  | .insertNoKey x =>
    let r := w.pv.insertNoKey w.heap x
    some (⟨r.1, r.2.1⟩, .index r.2.2)
  | .assignPtr k x =>
    let o := w.heap.makeOpt x
    (w.pv.insertOrAssignPtr I o.1 k o.2).map fun r => (⟨r.1, r.2.1⟩, .index (some r.2.2))
  | .assign k x => (w.pv.insertOrAssign I w.heap k x).map fun r => (⟨r.1, r.2.1⟩, .index (some r.2.2))
  | .find k => (w.pv.find k).bind fun p => (w.heap.read p).map fun x => (w, .ptr x)
  | .get i => (w.pv.get i).bind fun p => (w.heap.read p).map fun x => (w, .ptr x)
  | .write i x => (w.pv.get i).bind fun p => p.bind fun p => (w.heap.write p x).map fun h => (⟨w.pv, h⟩, .done)
  | .back => w.pv.back.bind fun p => (w.heap.read p).map fun x => (w, .ptr x)
  | .addTerm k i =>
    let r := w.pv.addSearchTermForIndex I k i
    some (⟨r.1, w.heap⟩, .bool r.2)
  | .removeIndex i => (w.pv.removeIndex unset w.heap i).map fun r => (⟨r.1, r.2⟩, .done)
  | .remove k => (w.pv.remove w.heap k).map fun r => (⟨r.1, r.2⟩, .done)
  | .apply => (readAll w.heap w.pv.apply).map fun xs => (w, .ptrs xs)
  | .size => some (w, .num w.pv.size)
  | .clear => (w.pv.clear w.heap).map fun r => (⟨r.1, r.2⟩, .done)

/-- Execution of a program. -/
def run (I : MapImpl K) (unset : Option K) : World K V → List (Op K V) → Option (World K V × List (Obs V))
  | w, [] => some (w, [])
  | w, op :: ops => (exec I unset w op).bind fun r => (run I unset r.1 ops).map fun s => (s.1, r.2 :: s.2)

end Verif.Mapped.Pointer
