import Verif.Lemmas.Feed
/-!
# Lemmas: chunks behind an item
-/
namespace Bytecodec

open Spec

variable {σ α : Type}

/-- One chunk that gives an item: what comes later is not touched. -/
theorem feed_first {D : Decoder σ α} {s : σ} {c : Bytes} {e : Eos} {r : Nat × α × σ} (h : feed D s [(c, e)] = some r)
    (later : List (Bytes × Eos)) : feed D s ((c, e) :: later) = some r := by
  unfold feed at h ⊢
  split at h
  · rw [if_pos ‹_›]; exact h
  · rw [if_neg ‹_›]
    simp only at h ⊢
    split at h
    · next n s1 hd =>
      (try rw [hd])
      (try simp only)
      split at h
      · next hc =>
        rw [if_pos hc]
        unfold feed at h
        split at h
        · next hi =>
          unfold feed
          rw [if_pos hi]
          exact h
        · simp at h
      · cases h
    · cases h

end Bytecodec
