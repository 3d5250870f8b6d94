import Verif.Model.Captured
import Verif.Lemmas.Reach
/-!
# Lemmas about decoders whose functions have captured values
-/
namespace Bytecodec

open Spec

variable {ε σ α : Type} {F : ε → Decoder σ α} {x : ε}

theorem captured_decode {s : σ} {b : Bytes} {e : Eos} {r : Res Nat} {t : ε × σ} :
    (capturedDecoder F).decode (x, s) b e = (r, t) ↔ (F x).decode s b e = (r, t.2) ∧ t.1 = x := by
  obtain ⟨y, t⟩ := t
  have e1 : (capturedDecoder F).decode (x, s) b e = (((F x).decode s b e).1, x, ((F x).decode s b e).2) := rfl
  rw [e1]
  rcases (F x).decode s b e with ⟨r', u⟩
  constructor
  · intro h; cases h; exact ⟨rfl, rfl⟩
  · rintro ⟨h, rfl⟩; cases h; rfl

theorem captured_finish {s : σ} {r : Res α} {t : ε × σ} :
    (capturedDecoder F).finish (x, s) = (r, t) ↔ (F x).finish s = (r, t.2) ∧ t.1 = x := by
  obtain ⟨y, t⟩ := t
  have e1 : (capturedDecoder F).finish (x, s) = (((F x).finish s).1, x, ((F x).finish s).2) := rfl
  rw [e1]
  rcases (F x).finish s with ⟨r', u⟩
  constructor
  · intro h; cases h; exact ⟨rfl, rfl⟩
  · rintro ⟨h, rfl⟩; cases h; rfl

theorem reach_captured {s₀ : σ} {t : ε × σ} (h : Reach (capturedDecoder F) (x, s₀) t) :
    ∃ s, t = (x, s) ∧ Reach (F x) s₀ s := by
  refine Reach.inv (Inv := fun t => ∃ s, t = (x, s) ∧ Reach (F x) s₀ s) ⟨_, rfl, .refl⟩ ?_ ?_ h
  · rintro _ b e ⟨s, rfl, h⟩ he
    exact ⟨_, rfl, h.decode b e he⟩
  · rintro _ ⟨s, rfl, h⟩
    exact ⟨_, rfl, h.finish⟩

theorem safe_captured {s : σ} (h : SafeFrom (F x) s) : SafeFrom (capturedDecoder F) (x, s) := by
  intro t ht
  obtain ⟨s, rfl, hs⟩ := reach_captured ht
  exact h s hs

theorem idle_captured {s : σ} (h : IdleStable (F x) s) : IdleStable (capturedDecoder F) (x, s) := by
  intro t ht hi b e he
  obtain ⟨s, rfl, hs⟩ := reach_captured ht
  have := h s hs hi b e he
  exact ⟨congrArg (Prod.mk x) this.1, this.2⟩

theorem eos_captured {s : σ} (h : EosStrict (F x) s) : EosStrict (capturedDecoder F) (x, s) := by
  intro t ht b n s' hb hd
  obtain ⟨s, rfl, hs⟩ := reach_captured ht
  obtain ⟨hd, rfl⟩ := captured_decode.1 hd
  exact h s hs b n s'.2 hb hd

end Bytecodec
