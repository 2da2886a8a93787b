import Verif.Loop

/-!
# Model of the type table and of numeric arrays

vl/generic.h, vl/array.c.  `vl_size` has 64 bits.
-/

namespace Verif.Generic

/-- The constants `VL_TYPE_*`, vl/generic.h:35-44. -/
inductive Ty where
  | float | double | int8 | uint8 | int16 | uint16 | int32 | uint32 | int64 | uint64
  deriving DecidableEq

/-- Their values, vl/generic.h:35-44. -/
def Ty.value : Ty → Nat
  | .float => 1 | .double => 2 | .int8 => 3 | .uint8 => 4 | .int16 => 5 | .uint16 => 6 | .int32 => 7 | .uint32 => 8
  | .int64 => 9 | .uint64 => 10

/-- `vl_get_type_name`, vl/generic.h:57-73; the inner `none` is the null pointer. -/
def typeName (type : Nat) : Option String :=
  match type with
  | 1 => some "float"
  | 2 => some "double"
  | 3 => some "int8"
  | 5 => some "int16"
  | 7 => some "int32"
  | 9 => some "int64"
  | 4 => some "int8"
  | 6 => some "int16"
  | 8 => some "int32"
  | 10 => some "int64"
  | _ => none

/-- `vl_get_type_size`, vl/generic.h:84-99; `none` is `abort`. -/
def typeSize (type : Nat) : Option Nat :=
  match type with
  | 2 => some 8
  | 1 => some 4
  | 9 => some 8
  | 10 => some 8
  | 7 => some 4
  | 8 => some 4
  | 5 => some 2
  | 6 => some 2
  | 3 => some 1
  | 4 => some 1
  | _ => none

/-- A product of two `vl_size`. -/
def mulSize (a b : Nat) : Nat := a * b % 2 ^ 64

/-- `vl_array_get_num_elements`, vl/array.c:21-34; `dims` is the table of 16 dimensions. -/
def numElements (dims : List Nat) (numDimensions : Nat) : Option Nat :=
  if numDimensions = 0 then some 0
  else iter numDimensions (fun k n => do
    let d ← rd dims k
    some (mulSize n d)) 1

/-- `VlArray`, vl/array.h:23-33, with the size of the block of the data in the place of the pointer. -/
structure VlArray where
  type : Nat
  isEnvelope : Bool
  numDimensions : Nat
  dimensions : List Nat
  bytes : Nat

/-- `memcpy(self->dimensions, dimensions, ...)`, vl/array.c:58. -/
def copyDims (src : List Nat) (n : Nat) (dst : List Nat) : Option (List Nat) :=
  iter n (fun k dst => do
    let d ← rd src k
    wr dst k d) dst

/-- `vl_array_init`, vl/array.c:51-63; `g` is what the table of the dimensions contains before. -/
def arrayInit (g : List Nat) (type numDimensions : Nat) (dims : List Nat) : Option VlArray := do
  let _ ← assert' (decide (numDimensions ≤ 16))
  let d ← copyDims dims numDimensions g
  let n ← numElements d numDimensions
  let size ← typeSize type
  some { type := type, isEnvelope := false, numDimensions := numDimensions, dimensions := d, bytes := mulSize size n }

end Verif.Generic
