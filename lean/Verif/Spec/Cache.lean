/-!
# Specification of a set-associative LRU cache with lockable lines

Independent of the model.  A set is the list of its resident lines, most recently used first;
each entry is a line number (address / 64) and whether the line is locked.
-/
namespace Spec.Lru

abbrev SetL := List (Nat × Bool)

/-- is line `x` resident -/
def has (L : SetL) (x : Nat) : Bool := L.any (fun p => p.1 == x)
/-- number of locked lines -/
def locked (L : SetL) : Nat := L.countP (fun p => p.2)
/-- drop the least recently used line that is not locked -/
def dropLru (L : SetL) : SetL := (L.reverse.eraseP (fun p => !p.2)).reverse
/-- use line `x` in a set of `n` ways: a resident line moves to the front; an absent one is put
there, after an eviction if no way is free -/
def useLine (n : Nat) (L : SetL) (x : Nat) : SetL :=
  match L.find? (fun p => p.1 == x) with
  | some p => p :: L.eraseP (fun p => p.1 == x)
  | none => (x, false) :: (if L.length < n then L else dropLru L)
/-- set the lock flag of line `x` -/
def setLock (L : SetL) (x : Nat) (b : Bool) : SetL := L.map fun p => if p.1 = x then (x, b) else p
/-- lock line `x` unless `n - 1` lines are locked -/
def lock (n : Nat) (L : SetL) (x : Nat) : SetL := if locked L < n - 1 then setLock L x true else L

/-- what a client does, as far as residency is concerned -/
inductive Act where
  | use (line : Nat)
  | lock (line : Nat)
  | unlock (line : Nat)
  | other

/-- all sets -/
abbrev State := Nat → SetL
def upd (S : State) (i : Nat) (L : SetL) : State := fun j => if j = i then L else S j
/-- one action on a cache of `sets` sets and `ways` ways -/
def step (sets ways : Nat) (S : State) : Act → State
  | .use x => upd S (x % sets) (useLine ways (S (x % sets)) x)
  | .lock x => upd S (x % sets) (lock ways (useLine ways (S (x % sets)) x) x)
  | .unlock x => upd S (x % sets) (setLock (S (x % sets)) x false)
  | .other => S
/-- from an empty cache -/
def run (sets ways : Nat) (as : List Act) : State := as.foldl (step sets ways) (fun _ => [])

end Spec.Lru
