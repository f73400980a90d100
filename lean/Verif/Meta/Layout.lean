/-
Model of the storage computation.
/repo/include/boost/variant/variant.hpp lines 124-152 (`max_value`, `add_alignment`), 325-363 (`make_storage`) and
1158-1163 (`storage_t`).
-/

namespace BVariant

/-- `sizeof` and `alignment_of` of a type. (The language; used at variant.hpp 338-348.) -/
structure Layout where
  size : Nat
  align : Nat
  deriving DecidableEq, Repr

/-- The walk of `mpl::max_element` (variant.hpp 130-132): the largest value so far, `cur`, is replaced by a later value
that is greater. MPL itself is not in the sandbox; this is its documented behaviour. -/
def maxElement (cur : Nat) : List Nat → Nat
  | [] => cur
  | a :: as => maxElement (if cur < a then a else cur) as

/-- `max_value<types, mpl::sizeof_<_1> >`, variant.hpp 124-139. The sequence is never empty (1108-1110); for the empty
sequence the code does not compile, here it gives 0. -/
def maxSize : List Layout → Nat
  | [] => 0
  | t :: ts => maxElement t.size (ts.map (·.size))

/-- `add_alignment`, variant.hpp 141-152. -/
def addAlignment (state : Nat) (item : Layout) : Nat := Nat.lcm state item.align

/-- `max_alignment`, variant.hpp 344-348. -/
def maxAlignment (types : List Layout) : Nat := types.foldl addAlignment 1

/-- `boost::aligned_storage<size, align>`: a union of `char[size]` and a type of alignment `align`, so its size is
rounded up to a multiple of the alignment. Boost.TypeTraits is not in the sandbox. (Boost.TypeTraits; used at variant.hpp
359-362.) -/
def alignedStorage (size align : Nat) : Layout := ⟨(size + align - 1) / align * align, align⟩

/-- `types` of `make_storage`, variant.hpp 330-336: the backup holder is put in front unless it is never used. All
`backup_holder<T>` consist of one pointer (backup_holder.hpp 27), so `backup_holder<void*>` stands for all. -/
def storageTypes (types : List Layout) (neverUsesBackup : Bool) (holder : Layout) : List Layout :=
  if neverUsesBackup then types else holder :: types

/-- `make_storage<Types, NeverUsesBackupFlag>::type`, variant.hpp 325-363. -/
def makeStorage (types : List Layout) (neverUsesBackup : Bool) (holder : Layout) : Layout :=
  let ts := storageTypes types neverUsesBackup holder
  alignedStorage (maxSize ts) (maxAlignment ts)

end BVariant
