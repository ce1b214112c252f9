import Verif.AddressMapper.Model

/-!
# Specification of address remapping, independent of the implementation

A history of requests leaves a set of *pieces* of real address space. A new request puts its own range on
top: ranges it does not meet stay, a range that properly contains it is cut in two, every other range it meets
is dropped.  With a page alignment, a request that would cut a page (and is not allowed to) is refused, and
the range it would have cut is lost (see `C06_violated`).
-/

namespace Verif.AddressMapper

/-- `[lo, lo + len)` belongs to the region `id`, at offset `off` of that region. -/
structure Piece where
  lo : Nat
  len : Nat
  id : Nat
  off : Nat
deriving Repr, DecidableEq

def Piece.has (p : Piece) (addr : Nat) : Bool := decide (p.lo ≤ addr ∧ addr < p.lo + p.len)

/-- What a lookup reports for an address of the piece. -/
def Piece.value (p : Piece) (addr : Nat) : Nat × Nat := (p.id, (addr - p.lo + p.off) % 2 ^ 64)

/-- The request's range as a piece. -/
def Req.piece (q : Req) : Piece := ⟨q.real, q.size, q.id, q.off⟩

/-- The request's range `[real, real + size)` contains `addr`. -/
def Req.has (q : Req) (addr : Nat) : Bool := decide (q.real ≤ addr ∧ addr < q.real + q.size)

/-- The piece properly contains the request. -/
def Piece.encloses (p : Piece) (q : Req) : Bool :=
  decide (p.lo ≤ q.real ∧ q.real + q.size ≤ p.lo + p.len ∧ q.size < p.len)

/-- Cutting the piece for the request would cut inside a page, which the request does not allow. -/
def Piece.cutsPage (align : Nat) (p : Piece) (q : Req) : Bool :=
  !q.allowUnaligned && decide (align ≠ 0) &&
    ((decide (p.lo ≠ q.real) && decide (q.real % align ≠ 0)) ||
     (decide (p.lo + p.len ≠ q.real + q.size) && decide ((q.real + q.size) % align ≠ 0)))

/-- What is left of a piece under a new request. -/
def Piece.under (p : Piece) (q : Req) : List Piece :=
  if p.lo + p.len ≤ q.real ∨ q.real + q.size ≤ p.lo then [p]
  else if p.encloses q then
    (if p.lo < q.real then [⟨p.lo, q.real - p.lo, p.id, p.off⟩] else []) ++
    (if q.real + q.size < p.lo + p.len then
      [⟨q.real + q.size, p.lo + p.len - (q.real + q.size), p.id,
        (p.off + (q.real + q.size - p.lo)) % 2 ^ 64⟩] else [])
  else []

/-- One request: answer and remaining pieces. -/
def specStep (align : Nat) (ps : List Piece) (q : Req) : Bool × List Piece :=
  if q.size = 0 ∨ 2 ^ 64 < q.real + q.size then (false, ps)
  else if ps.any (fun p => p.encloses q && p.cutsPage align q) then
    (false, ps.filter (fun p => !p.encloses q))
  else (true, ps.flatMap (fun p => p.under q) ++ [q.piece])

/-- A history of requests: answers (oldest first) and remaining pieces. -/
def specRun (align : Nat) (ps : List Piece) : List Req → List Bool × List Piece
  | [] => ([], ps)
  | q :: qs =>
    let r := specStep align ps q
    let rest := specRun align r.2 qs
    (r.1 :: rest.1, rest.2)

/-- Identifier and offset of an address. -/
def specLookup (ps : List Piece) (addr : Nat) : Option (Nat × Nat) :=
  (ps.find? (fun p => p.has addr)).map (fun p => p.value addr)

/-- The value of the most recent accepted request whose range contains the address. `h` pairs requests with
their answers, oldest first. -/
def newest (h : List (Req × Bool)) (addr : Nat) : Option (Nat × Nat) :=
  (h.reverse.find? (fun e => e.2 && e.1.has addr)).map (fun e => e.1.piece.value addr)

/-- A request with 64-bit arguments whose range does not end exactly at `2^64`. -/
def Req.wf (q : Req) : Prop := q.real < 2 ^ 64 ∧ q.size < 2 ^ 64 ∧ q.real + q.size ≠ 2 ^ 64

/-- The alignments the constructor is meant for. -/
def AlignOK (align : Nat) : Prop := align = 0 ∨ ∃ k, k < 64 ∧ align = 2 ^ k

/-- The remapped space is never exhausted: every request is at most `S` bytes long and all of them together
leave room for the alignment padding. -/
def Roomy (align S : Nat) (qs : List Req) : Prop :=
  (∀ q ∈ qs, q.size ≤ S) ∧ qs.length * (S + 6 * align) < 2 ^ 64

/-- As `Roomy`, but nothing is asked without page alignment. -/
def RoomFor (align S : Nat) (qs : List Req) : Prop := align = 0 ∨ Roomy align S qs

end Verif.AddressMapper
