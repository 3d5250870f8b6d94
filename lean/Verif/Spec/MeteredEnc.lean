import Verif.Spec.Work
import Verif.Spec.Interchange
/-!
# Specification: the work of encoders

The work is counted by composing the encoder a second time from counting innermost encoders.
-/
namespace Bytecodec.Spec

variable {σ τ α : Type}

/-- The calls an innermost encoder has received. -/
def EncCalls.total (c : EncCalls) : Nat := c.encodes + c.starts

/-- The encoder never claims to have written more than there is room for. -/
def WritesWithin (E : Encoder σ α) : Prop :=
  ∀ s cap e bs s', E.encode s cap e = (.ok bs, s') → bs.length ≤ cap

/-- `MeteredEnc a b c E s M t cost w`: `M` is `E` with counting innermost encoders, and `cost` adds up their counts. `a` is the
price of a call of `encode`, `b` that of a byte, and `w x` the number of innermost items in `x`. `c` is what the initial
state already holds. -/
inductive MeteredEnc : {σ τ α : Type} → Nat → Nat → Nat → Encoder σ α → σ → Encoder τ α → τ → (τ → Nat) → (α → Nat) → Prop
  /-- an innermost encoder, of any kind -/
  | leaf {σ α : Type} (E : Encoder σ α) (s : σ) : WritesWithin E →
      MeteredEnc 1 0 0 E s (countedEncoder E) (s, ⟨0, 0, 0⟩) (fun t => t.2.total) (fun _ => 1)
  | weaken {σ τ α : Type} {a b a' b' c : Nat} {E : Encoder σ α} {s : σ} {M : Encoder τ α} {t : τ} {cost : τ → Nat} {w : α → Nat} :
      a ≤ a' → b ≤ b' → MeteredEnc a b c E s M t cost w → MeteredEnc a' b' c E s M t cost w
  | mapErr {σ τ α : Type} {a b c : Nat} {E : Encoder σ α} {s : σ} {M : Encoder τ α} {t : τ} {cost : τ → Nat} {w : α → Nat}
      (f : ErrorKind → ErrorKind) : MeteredEnc a b c E s M t cost w →
      MeteredEnc a b c (mapErrEncoder E f) s (mapErrEncoder M f) t cost w
  | mapFrom {σ τ α β : Type} {a b c : Nat} {E : Encoder σ α} {s : σ} {M : Encoder τ α} {t : τ} {cost : τ → Nat} {w : α → Nat}
      (f : β → α) : MeteredEnc a b c E s M t cost w →
      MeteredEnc a b c (mapFromEncoder E f) s (mapFromEncoder M f) t cost (fun x => w (f x))
  | tryMapFrom {σ τ α β : Type} {a b c : Nat} {E : Encoder σ α} {s : σ} {M : Encoder τ α} {t : τ} {cost : τ → Nat}
      {w : α → Nat} (f : β → Except ErrorKind α) : MeteredEnc a b c E s M t cost w →
      MeteredEnc a b c (tryMapFromEncoder E f) s (tryMapFromEncoder M f) t cost
        (fun x => match f x with | .ok y => w y | .error _ => 0)
  /-- an item that is left out costs nothing -/
  | optional {σ τ α : Type} {a b c : Nat} {E : Encoder σ α} {s : σ} {M : Encoder τ α} {t : τ} {cost : τ → Nat} {w : α → Nat} :
      MeteredEnc a b c E s M t cost w →
      MeteredEnc a b c (optionalEncoder E) s (optionalEncoder M) t cost (fun x => x.elim 0 w)
  | length {σ τ α : Type} {a b c : Nat} {E : Encoder σ α} {s : σ} {M : Encoder τ α} {t : τ} {cost : τ → Nat} {w : α → Nat}
      (n : Nat) : MeteredEnc a b c E s M t cost w →
      MeteredEnc a b c (lengthEncoder E).toEncoder (.new s n) (lengthEncoder M).toEncoder (.new t n) (fun u => cost u.inner) w
  | maxBytes {σ τ α : Type} {a b c : Nat} {E : Encoder σ α} {s : σ} {M : Encoder τ α} {t : τ} {cost : τ → Nat} {w : α → Nat}
      (n : Nat) : MeteredEnc a b c E s M t cost w →
      MeteredEnc a b c (maxBytesEncoder E) (.new s n) (maxBytesEncoder M) (.new t n) (fun u => cost u.inner) w
  | slice {σ τ α : Type} {a b c : Nat} {E : Encoder σ α} {s : σ} {M : Encoder τ α} {t : τ} {cost : τ → Nat} {w : α → Nat}
      (n : Nat) : MeteredEnc a b c E s M t cost w →
      MeteredEnc a b c (sliceEncoder E) ⟨s, n⟩ (sliceEncoder M) ⟨t, n⟩ (fun u => cost u.inner) w
  /-- the item it was made with is started by the first call of `encode` -/
  | last {σ τ α : Type} {a b c : Nat} {E : Encoder σ α} {s : σ} {M : Encoder τ α} {t : τ} {cost : τ → Nat} {w : α → Nat}
      (x : α) : MeteredEnc a b c E s M t cost w →
      MeteredEnc a b (c + w x) (lastEncoder E) (.new s x) (lastEncoder M) (.new t x) (fun u => cost u.inner) Empty.elim
  | pair {σ0 τ0 α0 σ1 τ1 α1 : Type} {a0 a1 b c0 c1 : Nat} {E0 : Encoder σ0 α0} {s0 : σ0} {M0 : Encoder τ0 α0} {t0 : τ0}
      {cost0 : τ0 → Nat} {w0 : α0 → Nat} {E1 : Encoder σ1 α1} {s1 : σ1} {M1 : Encoder τ1 α1} {t1 : τ1} {cost1 : τ1 → Nat}
      {w1 : α1 → Nat} : MeteredEnc a0 b c0 E0 s0 M0 t0 cost0 w0 → MeteredEnc a1 b c1 E1 s1 M1 t1 cost1 w1 →
      MeteredEnc (a0 + a1) b (c0 + c1) (tupleEncoder2 E0 E1) (s0, s1) (tupleEncoder2 M0 M1) (t0, t1)
        (fun u => cost0 u.1 + cost1 u.2) (fun x => w0 x.1 + w1 x.2)
  /-- the items of a list are started one by one; the price of a byte goes up by that of a call -/
  | repeat {σ τ α : Type} {a b c : Nat} {E : Encoder σ α} {s : σ} {M : Encoder τ α} {t : τ} {cost : τ → Nat} {w : α → Nat} :
      MeteredEnc a b c E s M t cost w →
      MeteredEnc a (a + b) c (repeatEncoder E) (.new s) (repeatEncoder M) (.new t) (fun u => cost u.inner)
        (fun xs => (xs.map w).sum)

/-- The encoder after these calls. -/
def afterE (E : Encoder σ α) (s : σ) (calls : List (ECall α)) : σ := calls.foldl (ecallState E) s

/-- How many of the calls are calls of `encode`. -/
def encodesIn : List (ECall α) → Nat
  | [] => 0
  | .start _ :: cs => encodesIn cs
  | .encode _ _ :: cs => encodesIn cs + 1

/-- The bytes written by a call of `encode`. For one that failed, which may have written up to the end of its buffer, its room. -/
def EAnswer.bytes (cap : Nat) : EAnswer → Nat
  | .encode (.ok bs) => bs.length
  | _ => cap

/-- The bytes written by these calls. -/
def bytesIn : List (ECall α) → List ESeen → Nat
  | .encode cap _ :: cs, o :: os => o.answer.bytes cap + bytesIn cs os
  | .start _ :: cs, _ :: os => bytesIn cs os
  | _, _ => 0

/-- The innermost items handed over. -/
def itemsIn (w : α → Nat) : List (ECall α) → Nat
  | [] => 0
  | .start x :: cs => w x + itemsIn w cs
  | .encode _ _ :: cs => itemsIn w cs

end Bytecodec.Spec
