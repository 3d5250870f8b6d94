import Verif.Spec.Encode
import Verif.Spec.Interchange
import Verif.Model.Containers
/-!
# Specification: iterators and what they deliver
-/
namespace Bytecodec.Spec

variable {σ α ι : Type}

/-- An iterator type all of whose values end; `list i` are the items that `i` delivers. -/
structure Lists (next : ι → Option (α × ι)) (list : ι → List α) : Prop where
  last : ∀ i, next i = none → list i = []
  item : ∀ i x i', next i = some (x, i') → list i = x :: list i'

/-- The iterator `iter 0` never ends: it delivers `item 0`, `item 1`, … -/
def Endless (next : ι → Option (α × ι)) (iter : Nat → ι) (item : Nat → α) : Prop :=
  ∀ n, next (iter n) = some (item n, iter (n + 1))

/-- The answers to `encode` calls with buffers of these sizes, none of them announcing the end of the
stream, and the state afterwards. -/
def encodeEach (E : Encoder σ α) (s : σ) : List Nat → List (Res Bytes) × σ
  | [] => ([], s)
  | cap :: caps =>
    ((E.encode s cap (Eos.new false)).1 :: (encodeEach E (E.encode s cap (Eos.new false)).2 caps).1,
      (encodeEach E (E.encode s cap (Eos.new false)).2 caps).2)

/-- The list cut into pieces of these sizes. -/
def cut : List Nat → Bytes → List Bytes
  | [], _ => []
  | n :: ns, bs => bs.take n :: cut ns (bs.drop n)

/-- The first `m` of the encodings `b 0`, `b 1`, …, one after the other. -/
def firstOf (b : Nat → Bytes) (m : Nat) : Bytes := ((List.range m).map b).flatten

end Bytecodec.Spec
