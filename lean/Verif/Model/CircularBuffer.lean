import Verif.Model.Convolution

/-!
# boost::circular_buffer, the signal of NaiveConvolution

Boost is not part of /repo. The buffer is modelled by its documentation: a sequence of at most `capacity` elements, in the order of `operator[]`;
a push on a full buffer drops the element at the other end, a push on a buffer of capacity zero does nothing.
-/

namespace MU

/-- `boost::circular_buffer<Real>`, the type of `signal` at /repo/src/MathUtils/Convolution.h:40. -/
structure CircularBuffer (K : Type) where
  capacity : Nat
  elems : List K

namespace CircularBuffer
variable {K : Type}

/-- `circular_buffer(capacity)`: empty. For the argument at /repo/src/MathUtils/Convolution.h:40. -/
def empty (capacity : Nat) : CircularBuffer K := ⟨capacity, []⟩

/-- `circular_buffer(capacity, capacity, value)`: full of one value. For the argument at /repo/src/MathUtils/Convolution.h:40, as built
at /repo/tests/test_convolution.cpp:49. -/
def filled (capacity : Nat) (value : K) : CircularBuffer K := ⟨capacity, List.replicate capacity value⟩

/-- `push_front`, as used for the argument of /repo/src/MathUtils/Convolution.h:40 at /repo/tests/test_convolution.cpp:51. -/
def pushFront (b : CircularBuffer K) (x : K) : CircularBuffer K :=
  if b.capacity = 0 then b
  else if b.elems.length = b.capacity then ⟨b.capacity, x :: b.elems.dropLast⟩
  else ⟨b.capacity, x :: b.elems⟩

/-- `push_back`, for the argument of /repo/src/MathUtils/Convolution.h:40. -/
def pushBack (b : CircularBuffer K) (x : K) : CircularBuffer K :=
  if b.capacity = 0 then b
  else if b.elems.length = b.capacity then ⟨b.capacity, b.elems.tail ++ [x]⟩
  else ⟨b.capacity, b.elems ++ [x]⟩

end CircularBuffer
end MU
