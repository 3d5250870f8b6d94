import Verif.Model.Memory
import Verif.Spec.Decode
/-!
# Specification: histories with conditions on what is offered and announced
-/
namespace Bytecodec.Spec

variable {σ α : Type}

/-- The bytes that are announced to follow the buffer (0 if the distance is not known). -/
def announced (e : Eos) : Nat :=
  match e.remaining with
  | .finite r => r
  | _ => 0

/-- Any history of calls in which every `decode` call satisfies the condition `P c b e`, where `c` are the
bytes consumed for the current item before the call, `b` is the buffer and `e` what is announced.
`Offered … s c`: now the decoder is in state `s` and `c` bytes of the current item have been consumed. -/
inductive Offered (P : Nat → Bytes → Eos → Prop) (D : Decoder σ α) (s₀ : σ) : σ → Nat → Prop
  | new : Offered P D s₀ s₀ 0
  | decoded {s s' : σ} {c n : Nat} {b : Bytes} {e : Eos} : Offered P D s₀ s c → P c b e →
      D.decode s b e = (.ok n, s') → Offered P D s₀ s' (c + n)
  | failed {s s' : σ} {c : Nat} {b : Bytes} {e : Eos} {r : Res Nat} : Offered P D s₀ s c → P c b e →
      D.decode s b e = (r, s') → (∀ n, r ≠ .ok n) → Offered P D s₀ s' c
  | item {s s' : σ} {c : Nat} {x : α} : Offered P D s₀ s c → D.finish s = (.ok x, s') →
      Offered P D s₀ s' 0
  | refused {s s' : σ} {c : Nat} {r : Res α} : Offered P D s₀ s c → D.finish s = (r, s') →
      (∀ x, r ≠ .ok x) → Offered P D s₀ s' c

/-- The same for a caller that does not pass bytes to a decoder whose item is waiting to be taken (`is_idle`), as
no function of this crate does. -/
inductive Served (P : Nat → Bytes → Eos → Prop) (D : Decoder σ α) (s₀ : σ) : σ → Nat → Prop
  | new : Served P D s₀ s₀ 0
  | decoded {s s' : σ} {c n : Nat} {b : Bytes} {e : Eos} : Served P D s₀ s c → D.isIdle s = false → P c b e →
      D.decode s b e = (.ok n, s') → Served P D s₀ s' (c + n)
  | failed {s s' : σ} {c : Nat} {b : Bytes} {e : Eos} {r : Res Nat} : Served P D s₀ s c → D.isIdle s = false →
      P c b e → D.decode s b e = (r, s') → (∀ n, r ≠ .ok n) → Served P D s₀ s' c
  | item {s s' : σ} {c : Nat} {x : α} : Served P D s₀ s c → D.finish s = (.ok x, s') → Served P D s₀ s' 0
  | refused {s s' : σ} {c : Nat} {r : Res α} : Served P D s₀ s c → D.finish s = (r, s') →
      (∀ x, r ≠ .ok x) → Served P D s₀ s' c

end Bytecodec.Spec
