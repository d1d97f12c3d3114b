import Verif.Model.Buffers
/-
`StringBuffer::push_back_unchecked` (/repo/include/libvroom/arrow_buffer.h:239-246).
-/
namespace Vroom

/-- `push_back_unchecked` (arrow_buffer.h:239-246) on a buffer whose `data_` has capacity `cap`; `none`: the `memcpy` writes behind the allocation.  The bytes copied behind the size of the
vector do not survive: `data_.resize(new_size)` value-initialises the elements it adds, that is, it stores zeros over them (line 244; [vector.capacity]). -/
def StringBuffer.pushUnchecked (cap : Nat) (b : StringBuffer) (s : List UInt8) : Option StringBuffer :=
  let oldSize := b.data.length
  let newSize := oldSize + s.length
  if cap < newSize then none
  else
    let memory := b.data ++ s                                                       -- memcpy, line 243
    let resized := memory.take oldSize ++ List.replicate (newSize - oldSize) 0      -- resize, line 244
    some { data := resized, offsets := b.offsets ++ [UInt32.ofNat newSize] }

end Vroom
