/-!
Arrays that end at a terminator (ReflectedTypes.h 238-247, ReflectedTypes.c 456-471) and copies of them (Reflect.c 788-812, 905-934).

Memory is a list of bytes; a read or write past its end is undefined (`none`).  The elements are of a type that is copied byte by byte (the integers and characters of ReflectedTypes.c 548-557 are).
-/

namespace Verif.TermArray

/-- The loop of `CCReflectTerminatedArrayMapper` (ReflectedTypes.c 462-463) from the element at which `m` begins: how many elements it counts, with the terminator.  `es` is the size of an element; `memcmp` (463) may read all of an element, so that all of it has to be there; of no bytes it says equal. -/
def count (es : Nat) (term : List UInt8) (m : List UInt8) : Option Nat :=
  if es = 0 then some 1
  else if m.length < es then none
  else if m.take es = term then some 1
  else (count es term (m.drop es)).map (· + 1)
termination_by m.length
decreasing_by simp only [List.length_drop]; omega

/-- `CCReflectTerminatedArrayMapper` (ReflectedTypes.c 458-466): the number of elements of the array type and the bytes handed over. -/
def map (es : Nat) (term : List UInt8) (m : List UInt8) : Option (Nat × List UInt8) := (count es term m).map fun n => (n, m.take (n * es))

/-- `CCReflectTerminatedArrayUnmapper` (ReflectedTypes.c 468-471) with `CCReflectSetHandler` (Reflect.c 788-791): the elements of the array are written to the destination one by one (Reflect.c 890-892, 936-947), however much of it there is. -/
def unmap (es : Nat) (x : Nat × List UInt8) (dst : List UInt8) : Option (List UInt8) :=
  if dst.length < x.1 * es ∨ x.2.length < x.1 * es then none else some (x.2.take (x.1 * es) ++ dst.drop (x.1 * es))

/-- `CCReflectCopy` of an array that ends at a terminator (Reflect.c 905-934) with any of the three assignments: `CCReflectTransferHandler`, `CCReflectShareHandler` (793-802), `CCReflectCopyHandler` (806-812), whose copy in between has the same bytes. -/
def copy (es : Nat) (term : List UInt8) (src dst : List UInt8) : Option (List UInt8) := (map es term src).bind fun x => unmap es x dst

end Verif.TermArray
