import Verif.Model.Core
/-!
# Closures that capture values

In `src/combinator.rs` the functions given to `map`, `try_map`, `map_err`, `and_then` are closures, i.e. values
kept in the decoder. The other files model a function that is known when the decoder is written:
`mapDecoder D f`. In `a.and_then(|x| b.map(move |y| (x, y)))` the function given to `map` captures the item `x`.
-/
namespace Bytecodec

variable {ε σ α : Type}

/-- `src/combinator.rs` 17-21 (`Map { inner, map: F, .. }`; likewise `MapErr` 78-82, `TryMap` and `AndThen` 185-189), for a
decoder built inside a closure: a decoder whose functions have captured the values `x : ε`. These are part of its
state, are never changed (the closures are `Fn`), and say which functions are called: `F x` is the decoder with
these functions. -/
def capturedDecoder (F : ε → Decoder σ α) : Decoder (ε × σ) α where
  decode s b e := ((F s.1).decode s.2 b e).map id fun t => (s.1, t)
  finish s := ((F s.1).finish s.2).map id fun t => (s.1, t)
  requiring s := (F s.1).requiring s.2
  isIdle s := (F s.1).isIdle s.2

end Bytecodec
