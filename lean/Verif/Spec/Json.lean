/-!
# A JSON reader

RFC 8259 without arrays, `true`, `false` and escapes in strings, which a reader of the files here never meets.
A number is kept as it is written.
-/
namespace Ama.Spec.Json

inductive JV where
  | null
  | num (text : List Char)
  | str (text : List Char)
  | obj (members : List (List Char × JV))

/-- RFC 8259, 2 -/
def isWs (c : Char) : Bool := c == ' ' || c == '\n' || c == '\t' || c == '\r'
def skip : List Char → List Char
  | [] => []
  | c :: t => if isWs c then skip t else c :: t

/-- characters of numbers -/
def numChar (c : Char) : Bool := c.isDigit || c == '-' || c == '+' || c == '.' || c == 'e' || c == 'E'

/-- RFC 8259, 6: after the integer part: a fraction and no exponent, or nothing -/
def fracOk : List Char → Bool
  | [] => true
  | '.' :: d :: t => (d :: t).all (·.isDigit)
  | _ => false
/-- the integer part has no superfluous leading zero -/
def intOk : List Char → Bool
  | [] => false
  | '0' :: t => fracOk t
  | c :: t => c.isDigit && fracOk (t.dropWhile (·.isDigit))
/-- a number; exponents are not accepted -/
def numOk : List Char → Bool
  | '-' :: t => intOk t
  | t => intOk t

/-- the characters up to the closing quote; RFC 8259, 7 without escapes -/
def string : List Char → Option (List Char × List Char)
  | [] => none
  | '"' :: t => some ([], t)
  | c :: t => if c == '\\' || c.toNat < 0x20 then none else (string t).map fun (s, r) => (c :: s, r)

def number (s : List Char) : Option (JV × List Char) :=
  let l := s.takeWhile numChar
  if numOk l then some (.num l, s.dropWhile numChar) else none

mutual
/-- a value, possibly after white space; what is left is returned too -/
def value : Nat → List Char → Option (JV × List Char)
  | 0, _ => none
  | n + 1, s => match skip s with
    | '{' :: t => match skip t with
      | '}' :: u => some (.obj [], u)
      | _ => (members n t).map fun (m, r) => (.obj m, r)
    | '"' :: t => (string t).map fun (x, r) => (.str x, r)
    | 'n' :: 'u' :: 'l' :: 'l' :: t => some (.null, t)
    | t => number t
/-- the members of an object up to the closing brace -/
def members : Nat → List Char → Option (List (List Char × JV) × List Char)
  | 0, _ => none
  | n + 1, s => match skip s with
    | '"' :: t => match string t with
      | some (k, t) => match skip t with
        | ':' :: t => match value n t with
          | some (v, t) => match skip t with
            | ',' :: t => (members n t).map fun (m, r) => ((k, v) :: m, r)
            | '}' :: t => some ([(k, v)], t)
            | _ => none
          | none => none
        | _ => none
      | none => none
    | _ => none
end

/-- a whole file: one value and white space -/
def readJson (s : List Char) : Option JV :=
  match value (s.length + 1) s with
  | some (v, r) => if skip r = [] then some v else none
  | none => none

/-- the first member of that name -/
def JV.get : JV → List Char → Option JV
  | .obj m, k => (m.find? (fun x => x.1 == k)).map (·.2)
  | _, _ => none
/-- the member at the end of a path -/
def JV.at (v : JV) : List String → Option JV
  | [] => some v
  | k :: t => match v.get k.toList with
    | some u => u.at t
    | none => none

/-- the number `n` -/
def JV.nat (n : Nat) : JV := .num (Nat.toDigits 10 n)

/-- an acceptable number as written -/
def Number (l : List Char) : Prop := numOk l = true ∧ ∀ c ∈ l, numChar c = true
/-- needs no escaping -/
def Plain (l : List Char) : Prop := ∀ c ∈ l, c ≠ '"' ∧ c ≠ '\\' ∧ ¬ c.toNat < 0x20

example : (match readJson "{ \"a\": {\"b\": -1.50, \"c\" : null},\n \"d\": \"x\"}\n".toList with
  | some (.obj [(['a'], .obj [(['b'], .num ['-', '1', '.', '5', '0']), (['c'], .null)]), (['d'], .str ['x'])]) => true
  | _ => false) = true := by decide +kernel
/-- a comma too many, a comma missing, two values, a number with a leading zero, `nan`: not JSON -/
example : (["{\"a\": 1,}", "{\"a\": 1 \"b\": 2}", "{} {}", "{\"a\": 01}", "{\"a\": nan}", "{\"a\": 1"].all
  (fun s => (readJson s.toList).isNone)) = true := by decide +kernel

end Ama.Spec.Json
