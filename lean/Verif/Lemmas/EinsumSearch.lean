/-
Search for the certificates of `Einsum.check`: for every product the order of
its factors and the symmetries that give the smallest normal form.  Nothing here
is trusted: the result is data, verified by `check`.
-/
import Verif.Lemmas.Einsum

namespace OpenMS.Einsum

/-- State of the search: factors left, new names of letters, certificate so far
(last choice first). -/
structure Search where
  left : List Fac
  names : List (Nat × Nat)
  cert : List (Nat × Nat)

/-- Letters renamed in the order of their first occurrence. -/
def rename (b : Nat) : List Nat → List (Nat × Nat) → List Nat × List (Nat × Nat)
  | [], m => ([], m)
  | n :: ns, m =>
    if n < b then
      let (l, m') := rename b ns m
      (n :: l, m')
    else
      match m.lookup n with
      | some k =>
        let (l, m') := rename b ns m
        (k :: l, m')
      | none =>
        let k := 3 * (b + 1 + m.length) + n % 3
        let (l, m') := rename b ns ((n, k) :: m)
        (k :: l, m')

/-- Dictionary order. -/
def smaller : List Nat → List Nat → Bool
  | [], [] => false
  | [], _ => true
  | _, [] => false
  | a :: as, b :: bs => if a < b then true else if b < a then false else smaller as bs

/-- All choices of the next factor and its symmetry. -/
def candidates (sym : Nat → List Sym) (b : Nat) (s : Search) : List (List Nat × Search) :=
  let r := s.left.foldl (fun r f => min r f.root) 1000000
  s.left.zipIdx.flatMap fun (f, k) =>
    if f.root == r then
      (sym r).zipIdx.map fun (y, j) =>
        let (l, m) := rename b (permute 0 y.perm f.idx) s.names
        (l, ⟨s.left.eraseIdx k, m, (k, j) :: s.cert⟩)
    else []

/-- One step for all states that are still smallest. -/
def advance (sym : Nat → List Sym) (b : Nat) (ss : List Search) : List Search :=
  let all := ss.flatMap (candidates sym b)
  match all with
  | [] => []
  | c :: cs =>
    let best := cs.foldl (fun m x => if smaller x.1 m then x.1 else m) c.1
    (all.filter fun x => x.1 == best).map Prod.snd

/-- Certificate of a product. -/
def certificate (sym : Nat → List Sym) (b : Nat) (t : Term) : Cert :=
  let ss := t.facs.foldl (fun ss _ => (advance sym b ss).take 64) [⟨t.facs, [], []⟩]
  match ss with
  | [] => []
  | s :: _ => s.cert.reverse

end OpenMS.Einsum
