import Verif.Lemmas.Matched
/-!
# A format with a matching decoder is unambiguous
-/
namespace Bytecodec

open Spec

variable {σ τ α : Type}

theorem reads_delim_inj {again : Bool} {D : Decoder τ α} {F : τ → Prop} {wire : α → Bytes → Prop}
    (h : Reads true again D F wire) {s : τ} (hF : F s) {x y : α} {a b r t : Bytes} (hx : wire x a)
    (hy : wire y b) (he : a ++ r = b ++ t) : x = y ∧ a = b ∧ r = t := by
  have sane : ∀ n, EosSane (Eos.new false) n := by
    intro n k hk; simp [Eos.new] at hk
  obtain ⟨s1, h1, _⟩ := h.item (tail := r) (e := Eos.new false) hF hx (sane _) (.inl rfl)
  obtain ⟨s2, h2, _⟩ := h.item (tail := t) (e := Eos.new false) hF hy (sane _) (.inl rfl)
  rw [he, h2] at h1
  have h1' := congrArg (fun q => q.map fun q => (q.1, q.2.1)) h1
  simp only [Option.map_some, Option.some.injEq, Prod.mk.injEq] at h1'
  have hl : a.length = b.length := h1'.1.symm
  exact ⟨h1'.2.symm, List.append_inj_left he hl, List.append_inj_right he hl⟩

theorem reads_whole_inj {delim again : Bool} {D : Decoder τ α} {F : τ → Prop} {wire : α → Bytes → Prop}
    (h : Reads delim again D F wire) {s : τ} (hF : F s) {x y : α} {a : Bytes} (hx : wire x a)
    (hy : wire y a) (hl : a.length < 2 ^ 64) : x = y := by
  have sane : EosSane (Eos.new true) (a ++ []).length := by
    intro k hk
    simp only [Eos.new, if_true, ByteCount.finite.injEq] at hk
    subst hk
    simpa using hl
  obtain ⟨s1, h1, _⟩ := h.item (tail := []) (e := Eos.new true) hF hx sane (.inr ⟨rfl, rfl⟩)
  obtain ⟨s2, h2, _⟩ := h.item (tail := []) (e := Eos.new true) hF hy sane (.inr ⟨rfl, rfl⟩)
  rw [h2] at h1
  cases h1
  rfl

theorem stream_inj {dom : α → Prop} {enc : α → Except ErrorKind Bytes}
    (h : ∀ {x y a b r t}, dom x → dom y → enc x = .ok a → enc y = .ok b → a ++ r = b ++ t → x = y ∧ a = b ∧ r = t) :
    ∀ {xs ys : List α} {r t : Bytes}, (∀ x ∈ xs, dom x ∧ ∃ b, enc x = .ok b) →
      (∀ y ∈ ys, dom y ∧ ∃ b, enc y = .ok b) → xs.length ≤ ys.length →
      (xs.flatMap fun x => bytesOf (enc x)) ++ r = (ys.flatMap fun x => bytesOf (enc x)) ++ t →
      ∃ zs, ys = xs ++ zs ∧ r = (zs.flatMap fun x => bytesOf (enc x)) ++ t
  | [], ys, r, t, _, _, _, he => ⟨ys, rfl, by simpa using he⟩
  | x :: xs, [], _, _, _, _, hl, _ => by simp at hl
  | x :: xs, y :: ys, r, t, hx, hy, hl, he => by
    obtain ⟨hdx, a, ha⟩ := hx x (by simp)
    obtain ⟨hdy, b, hb⟩ := hy y (by simp)
    simp only [List.flatMap_cons, List.append_assoc, bytesOf_ok ha, bytesOf_ok hb] at he
    obtain ⟨rfl, _, h3⟩ := h hdx hdy ha hb he
    obtain ⟨zs, h4, h5⟩ := stream_inj h (fun z hz => hx z (by simp [hz])) (fun z hz => hy z (by simp [hz]))
      (by simpa using hl) h3
    exact ⟨zs, by rw [h4]; rfl, h5⟩

end Bytecodec
