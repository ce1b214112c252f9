/-!
# Model of `AddressMapper` (`/repo/src/quipper/address_mapper.{h,cc}`)

`mappings_` is a list of nodes; a `std::list` iterator is a node number (`nid`), which stays valid while
the node is in the list.  `real_addr_to_mapped_range_` is an association list from real address to node number,
sorted by key.  All 64-bit arithmetic is done on naturals with an explicit reduction `u64`.
Undefined behaviour (running an iterator past `end()`, dereferencing an erased node) is the outcome `none`.
Logging (`DumpToLog`, `LOG`) is left out.
-/

namespace Verif.AddressMapper

/-- `2^64`. -/
abbrev W : Nat := 18446744073709551616

/-- `UINT64_MAX`. -/
abbrev MAX : Nat := 18446744073709551615

/-- Reduction to `uint64_t`. -/
def u64 (n : Nat) : Nat := n % W

/-- `a - b` in `uint64_t` for `a, b < 2^64`. -/
def sub64 (a b : Nat) : Nat := (a + (W - b)) % W

/-- `struct MappedRange`, `address_mapper.h:65-74`. -/
structure Range where
  real : Nat
  mapped : Nat
  size : Nat
  id : Nat
  off : Nat
  /-- `unmapped_space_after` -/
  after : Nat
deriving Repr, DecidableEq

/-- `real_addr + size - 1`, the inclusive end used in `address_mapper.h:76-98`. -/
def Range.last (r : Range) : Nat := sub64 (u64 (r.real + r.size)) 1

/-- `MappedRange::Intersects`, `address_mapper.h:77-80`. -/
def Range.intersects (a b : Range) : Bool := a.real ≤ b.last && b.real ≤ a.last

/-- `MappedRange::Covers`, `address_mapper.h:83-86`. -/
def Range.covers (a b : Range) : Bool := a.real ≤ b.real && b.last ≤ a.last

/-- `MappedRange::ContainsAddress`, `address_mapper.h:96-98`. -/
def Range.containsAddress (r : Range) (addr : Nat) : Bool := r.real ≤ addr && addr ≤ r.last

/-- A `std::list` node. -/
structure Node where
  nid : Nat
  r : Range
deriving Repr, DecidableEq

/-- The object: `address_mapper.h:131-145`. `next` numbers the nodes (model only). -/
structure State where
  align : Nat
  list : List Node
  index : List (Nat × Nat)
  next : Nat
deriving Repr, DecidableEq

/-- Constructor, `address_mapper.h:22-25`: `none` is the `CHECK` failure. -/
def new (align : Nat) : Option State :=
  if align = 0 ∨ (align &&& (align - 1)) = 0 then some ⟨align, [], [], 0⟩ else none

/-- `GetAlignedOffset`, `address_mapper.h:127-129`; only called with a non-zero alignment. -/
def alignedOffset (align addr : Nat) : Nat := addr &&& (align - 1)

/-- Dereferencing an iterator; `none` if the node is gone. -/
def State.node (s : State) (n : Nat) : Option Range :=
  (s.list.find? (fun x => x.nid = n)).map (·.r)

/-- `std::map::insert(make_pair(k, n))`: keeps an existing key. -/
def indexInsert (m : List (Nat × Nat)) (k n : Nat) : List (Nat × Nat) :=
  match m with
  | [] => [(k, n)]
  | e :: t =>
    if e.1 < k then e :: indexInsert t k n
    else if k < e.1 then (k, n) :: e :: t
    else e :: t

/-- Position of `lower_bound(k)` in the index. -/
def lowerBound (m : List (Nat × Nat)) (k : Nat) : Nat := (m.takeWhile (fun e => e.1 < k)).length

/-- The list part of `Unmap`, `address_mapper.cc:288-299`: give the freed space to the previous range, if
there is one, and erase the node. -/
def removeNode (n : Nat) : List Node → List Node
  | [] => []
  | [a] => if a.nid = n then [] else [a]
  | a :: b :: t =>
    if a.nid = n then b :: t
    else if b.nid = n then
      { a with r := { a.r with after := u64 (a.r.after + u64 (b.r.size + b.r.after)) } } :: t
    else a :: removeNode n (b :: t)

/-- `Unmap`, `address_mapper.cc:288-299`. -/
def unmap (s : State) (n : Nat) : Option State :=
  match s.node n with
  | none => none
  | some r => some { s with
      list := removeNode n s.list
      index := s.index.filter (fun e => e.1 ≠ r.real) }

/-- `for (mapping_iter : mappings_to_delete) Unmap(mapping_iter)`, `address_mapper.cc:86-88`. -/
def unmapAll (s : State) : List Nat → Option State
  | [] => some s
  | n :: ns => match unmap s n with
    | none => none
    | some s' => unmapAll s' ns

/-- The collision loop, `address_mapper.cc:71-84`.  Outer `none`: undefined behaviour.
Inner `none`: `return false` of line 77. Otherwise `old_range_iter` and `mappings_to_delete`. -/
def scan (s : State) (rng : Range) (remove : Bool) :
    List (Nat × Nat) → Option Nat → List Nat → Option (Option (Option Nat × List Nat))
  | [], old, dels => some (some (old, dels))
  | (_, n) :: rest, old, dels =>
    match s.node n with
    | none => none
    | some r =>
      if ! r.intersects rng then scan s rng remove rest old dels
      else if ! remove then some none
      else if old.isNone && r.covers rng && decide (rng.size < r.size) then
        scan s rng remove rest (some n) dels
      else scan s rng remove rest old (dels ++ [n])

/-- The index positions visited by the loop `address_mapper.cc:63-73`; `none` when the loop would run past
`end()` because `map_iter_end` lies before `map_iter_start`. -/
def visited (s : State) (real size : Nat) : Option (List (Nat × Nat)) :=
  let lb := lowerBound s.index real
  let iStart := lb - 1
  let iEnd := lowerBound s.index (u64 (real + size))
  if iEnd < iStart then none else some ((s.index.drop iStart).take (iEnd - iStart))

/-- The result of `try_add_range_after`, `address_mapper.cc:175-215`: the new range's `mapped_addr` and
`unmapped_space_after`, and the existing range's new `unmapped_space_after`. -/
def tryAfter (align : Nat) (e rng : Range) : Option (Nat × Nat × Nat) :=
  if align ≠ 0 then
    let endExisting := u64 (e.mapped + e.size)
    let po := alignedOffset align endExisting
    let boundary := if po ≠ 0 then u64 (sub64 endExisting po + align) else endExisting
    let mo := alignedOffset align rng.real
    let endNew := u64 (u64 (boundary + mo) + rng.size)
    let endSpace := u64 (endExisting + e.after)
    if endNew > endSpace then none
    else
      let mapped := u64 (boundary + mo)
      some (mapped, sub64 endSpace endNew, sub64 mapped endExisting)
  else if e.after < rng.size then none
  else some (u64 (e.mapped + e.size), sub64 e.after rng.size, 0)

/-- Insert the new range right after the node `e`, `address_mapper.cc:201-220`. -/
def addAfter (align nid : Nat) (rng : Range) (e : Node) : Option (List Node) :=
  match tryAfter align e.r rng with
  | none => none
  | some (m, a, ea) =>
    some [{ e with r := { e.r with after := ea } }, ⟨nid, { rng with mapped := m, after := a }⟩]

/-- The first-fit search, `address_mapper.cc:235-241`. -/
def firstFit (align nid : Nat) (rng : Range) : List Node → Option (List Node)
  | [] => none
  | e :: t => match addAfter align nid rng e with
    | some l => some (l ++ t)
    | none => (firstFit align nid rng t).map (e :: ·)

/-- The last-range-only search, `address_mapper.cc:231-233`. -/
def lastFit (align nid : Nat) (rng : Range) : List Node → Option (List Node)
  | [] => none
  | [e] => addAfter align nid rng e
  | e :: e' :: t => (lastFit align nid rng (e' :: t)).map (e :: ·)

/-- Finding a place for a range, `address_mapper.cc:146-248`. -/
def place (s : State) (rng : Range) : Bool × State :=
  let po := if s.align ≠ 0 then alignedOffset s.align rng.real else 0
  match s.list with
  | [] =>
    (true, { s with
      list := [⟨s.next, { rng with mapped := po, after := sub64 (sub64 MAX rng.size) po }⟩]
      index := indexInsert s.index rng.real s.next
      next := s.next + 1 })
  | first :: t =>
    if first.r.mapped ≥ u64 (rng.size + po) then
      (true, { s with
        list := ⟨s.next, { rng with mapped := po,
                                    after := sub64 (sub64 first.r.mapped rng.size) po }⟩ :: first :: t
        index := indexInsert s.index rng.real s.next
        next := s.next + 1 })
    else
      let found := if s.list.length ≥ 10000 then lastFit s.align s.next rng s.list
                   else firstFit s.align s.next rng s.list
      match found with
      | none => (false, s)
      | some l => (true, { s with
          list := l
          index := indexInsert s.index rng.real s.next
          next := s.next + 1 })

/-- A mapping request (the arguments of `MapWithID`, `address_mapper.h:47-51`). -/
structure Req where
  real : Nat
  size : Nat
  id : Nat
  off : Nat
  allowUnaligned : Bool
deriving Repr, DecidableEq

/-- The overflow test, `address_mapper.cc:43-49`: `true` when refused. -/
def overflows (real size : Nat) : Bool :=
  sub64 (u64 (real + size)) 1 ≠ MAX && ! decide (u64 (real + size) > real)

/-- `MapWithIDInternal`, `address_mapper.cc:28-249`, with the recursive calls going to `nested`.
The result is the return value and the new state; `none` is undefined behaviour. -/
def mapInternalWith (nested : State → Nat → Nat → Nat → Nat → Option (Bool × State))
    (remove : Bool) (s : State) (q : Req) : Option (Bool × State) :=
  if q.size = 0 then some (false, s)
  else if q.allowUnaligned && ! remove then some (false, s)
  else if overflows q.real q.size then some (false, s)
  else
    let rng : Range := ⟨q.real, 0, q.size, q.id, q.off, 0⟩
    match visited s q.real q.size with
    | none => none
    | some entries =>
    match scan s rng remove entries none [] with
    | none => none
    | some none => some (false, s)
    | some (some (old, dels)) =>
    match unmapAll s dels with
    | none => none
    | some s1 =>
    match old with
    | none => some (place s1 rng)
    | some o =>
      match s1.node o with
      | none => none
      | some oldR =>
      match unmap s1 o with
      | none => none
      | some s2 =>
        let gapBefore := sub64 rng.real oldR.real
        let gapAfter := sub64 (u64 (oldR.real + oldR.size)) (u64 (rng.real + rng.size))
        if ! q.allowUnaligned && s.align ≠ 0 &&
            ((gapBefore ≠ 0 && alignedOffset s.align rng.real ≠ 0) ||
             (gapAfter ≠ 0 && alignedOffset s.align (u64 (rng.real + rng.size)) ≠ 0)) then
          some (false, s2)
        else
          match (if gapBefore ≠ 0 then nested s2 oldR.real gapBefore oldR.id oldR.off
                 else some (true, s2)) with
          | none => none
          | some (false, s3) => some (false, s3)
          | some (true, s3) =>
          match nested s3 rng.real rng.size q.id q.off with
          | none => none
          | some (false, s4) => some (false, s4)
          | some (true, s4) =>
            if gapAfter ≠ 0 then
              nested s4 (u64 (rng.real + rng.size)) gapAfter oldR.id
                (u64 (u64 (oldR.off + gapBefore) + rng.size))
            else some (true, s4)

/-- The recursive calls `address_mapper.cc:116-135`: `remove_existing_mappings = false`,
`allow_unaligned_mappings = false`.  With `remove = false` the collision loop never sets `old_range_iter`, so
a second level of recursion is unreachable; the model makes it undefined. -/
def mapNested (s : State) (real size id off : Nat) : Option (Bool × State) :=
  mapInternalWith (fun _ _ _ _ _ => none) false s ⟨real, size, id, off, false⟩

/-- `MapWithID`, `address_mapper.h:47-51`. -/
def mapWithID (s : State) (q : Req) : Option (Bool × State) := mapInternalWith mapNested true s q

/-- `GetRangeContainingAddress`, `address_mapper.cc:301-319`: inner `none` is `end()`, outer `none` is
undefined behaviour. -/
def rangeContaining (s : State) (addr : Nat) : Option (Option Range) :=
  match (s.index.takeWhile (fun e => e.1 ≤ addr)).getLast? with
  | none => some none
  | some (_, n) =>
    match s.node n with
    | none => none
    | some r => if r.containsAddress addr then some (some r) else some none

/-- `GetMappedAddress`, `address_mapper.cc:262-270`. -/
def getMappedAddress (s : State) (addr : Nat) : Option (Option Nat) :=
  (rangeContaining s addr).map (·.map fun r => sub64 (u64 (r.mapped + addr)) r.real)

/-- `GetMappedAddressIDAndOffset`, `address_mapper.cc:274-286`: (mapped address, id, offset). -/
def getMappedAddressIDAndOffset (s : State) (addr : Nat) : Option (Option (Nat × Nat × Nat)) :=
  (rangeContaining s addr).map (·.map fun r =>
    (u64 (sub64 addr r.real + r.mapped), r.id, u64 (sub64 addr r.real + r.off)))

/-- The copy constructor, `address_mapper.cc:17-26`: the nodes are copied and the index is rebuilt from the
list with `operator[]` assignment. -/
def indexAssign (m : List (Nat × Nat)) (k n : Nat) : List (Nat × Nat) :=
  match m with
  | [] => [(k, n)]
  | e :: t =>
    if e.1 < k then e :: indexAssign t k n
    else if k < e.1 then (k, n) :: e :: t
    else (k, n) :: t

/-- Copy construction, `address_mapper.cc:17-26`. -/
def copy (s : State) : State :=
  { s with index := s.list.foldl (fun m x => indexAssign m x.r.real x.nid) [] }

/-- Run a list of requests; collects the return values. -/
def runFrom (s : State) : List Req → Option (List Bool × State)
  | [] => some ([], s)
  | q :: qs => match mapWithID s q with
    | none => none
    | some (b, s') => match runFrom s' qs with
      | none => none
      | some (bs, s'') => some (b :: bs, s'')

end Verif.AddressMapper
