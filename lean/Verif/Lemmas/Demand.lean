import Verif.Lemmas.Idle
/-!
# Decoders that know to need more bytes do not finish
-/
namespace Bytecodec

open Spec

variable {σ α : Type}

/-- The count says that bytes are missing. -/
def Missing : ByteCount → Prop
  | .finite n => n ≠ 0
  | .infinite => True
  | .unknown => False

theorem missing_add {a b : ByteCount} (h : Missing (((ByteCount.finite 0).addForDecoding a).addForDecoding b)) :
    Missing a ∨ Missing b := by
  cases a <;> cases b
  all_goals first
    | (right; trivial) | (left; trivial) | skip
  · simp only [ByteCount.addForDecoding, Missing] at h ⊢; omega
  · rename_i n
    cases n with
    | zero => exact h.elim
    | succ n => left; simp only [Missing]; omega
  · rename_i n
    cases n with
    | zero => exact h.elim
    | succ n => right; simp only [Missing]; omega

theorem step_not_ok {β τ : Type} {p : Res α × σ} {wrap : σ → τ} {k : α → σ → Res β × τ}
    (h : ∀ x, p.1 ≠ .ok x) (y : β) : (Res.step p wrap k).1 ≠ .ok y := by
  obtain ⟨r, s⟩ := p
  cases r with
  | ok x => exact absurd rfl (h x)
  | _ => intro hh; cases hh

theorem parts_demand {own : OwnDecoder} {ok : Shape → Prop} {D : Decoder σ α} {s : σ} (hP : ∀ σ α (D : Decoder σ α) s, own σ α D s → ∀ t, Reach D s t → Missing (D.requiring t) → ∀ x, (D.finish t).1 ≠ .ok x)
    (h : AssembledWith own ok D s) :
    ∀ t, Reach D s t → Missing (D.requiring t) → ∀ x, (D.finish t).1 ≠ .ok x := by
  induction h with
  | own h => exact hP _ _ _ _ h
  | copyable b _ =>
    intro t _ h x
    have h : t.bytes.length - t.offset ≠ 0 := h
    simp only [copyableBytesDecoder]
    rw [if_neg (show ¬ t.offset = t.bytes.length by omega)]
    exact nofun
  | bytes b _ =>
    intro t _ h x
    have h : t.exact ≠ 0 := h
    simp only [bytesDecoder]
    rw [if_pos h]
    exact nofun
  | remaining =>
    intro t _ h x
    simp only [remainingBytesDecoder] at h ⊢
    cases he : t.eos <;> rw [he] at h
    · simp
    · exact absurd rfl h
  | null => intro t _ h; exact absurd rfl h
  | padding b _ =>
    intro t _ h x
    simp only [paddingDecoder] at h ⊢
    cases he : t.eos <;> rw [he] at h
    · simp
    · exact absurd rfl h
  | number f k _ =>
    intro t _ h x
    have h : t.bytes.length - t.offset ≠ 0 := h
    refine step_not_ok (fun y => ?_) x
    simp only [copyableBytesDecoder]
    rw [if_neg (show ¬ t.offset = t.bytes.length by omega)]
    exact nofun
  | utf8 _ _ ih => intro t hr h x; exact step_not_ok (ih t (reach_utf8 hr) h) x
  | monolithic p _ _ =>
    intro t _ h x
    simp only [monolithicDecoder] at h ⊢
    cases hi : t.item <;> rw [hi] at h
    · simp
    · exact absurd rfl h
  | map f _ _ ih => intro t hr h x; exact step_not_ok (ih t (reach_map hr) h) x
  | tryMap f _ _ ih => intro t hr h x; exact step_not_ok (ih t (reach_tryMap hr) h) x
  | @mapErr _ _ D _ f _ _ ih =>
    intro t hr h x
    have := ih t (reach_mapErr hr) h
    simp only [mapErrDecoder]
    generalize (D.finish t).1 = r at this
    cases r with
    | ok y => exact absurd rfl (this y)
    | _ => intro hh; cases hh
  | omittable d _ _ ih =>
    intro t hr h x
    simp only [omittableDecoder] at h ⊢
    cases hd : t.doOmit with
    | true => simp [hd, Missing] at h
    | false => simp only [hd] at h ⊢; exact step_not_ok (ih _ (reach_omit hr).1 h) x
  | length n _ _ _ ih =>
    intro t _ h x
    have h : t.remaining ≠ 0 := h
    simp only [lengthDecoder]
    rw [if_neg h]
    exact nofun
  | maxBytes n _ _ ih => intro t hr h x; exact step_not_ok (ih _ (reach_maxBytes hr).1 h) x
  | slice n _ _ ih => intro t hr h x; exact step_not_ok (ih _ (reach_slice hr) h) x
  | peekable _ _ ih =>
    intro t _ h x
    simp only [peekableDecoder] at h ⊢
    cases hi : t.item with
    | none => exact nofun
    | some y => simp [hi, Missing] at h
  | maybeEos _ _ ih => intro t hr h x; exact step_not_ok (ih _ (reach_maybeEos hr) h) x
  | collect _ _ _ ih =>
    intro t _ h x
    simp only [collectDecoder] at h ⊢
    cases he : t.eos with
    | true => simp [he, Missing] at h
    | false => simp
  | collectN n _ _ ih =>
    intro t _ h x
    simp only [collectNDecoder] at h ⊢
    by_cases hr : t.remaining = 0
    · simp [hr, Missing] at h
    · simp [hr]
  | @pair _ _ _ _ D0 D1 _ _ _ _ _ ih0 ih1 =>
    intro t hr h x
    rcases missing_add h with h | h
    · exact step_not_ok (ih0 _ (reach_pair hr).1 h) x
    · simp only [tupleDecoder2]
      generalize D0.finish t.1 = p
      obtain ⟨r, t'⟩ := p
      cases r with
      | ok y => exact step_not_ok (ih1 _ (reach_pair hr).2 h) x
      | _ => intro hh; cases hh
  | captured F v _ ih =>
    intro t hr h x
    obtain ⟨s, rfl, hs⟩ := reach_captured hr
    exact ih s hs h x
  | andThen f _ _ _ ih0 ih1 =>
    intro t hr h x
    obtain ⟨s0, o⟩ := t
    cases o with
    | none => exact nofun
    | some t =>
      obtain ⟨y, hy⟩ := (reach_andThen hr).2 t rfl
      exact ih1 y t hy h x

theorem assembled_demand {ok : Shape → Prop} {D : Decoder σ α} {s : σ} (h : Assembled ok D s) :
    ∀ t, Reach D s t → Missing (D.requiring t) → ∀ x, (D.finish t).1 ≠ .ok x :=
  parts_demand (fun _ _ _ _ h => h.elim) h

end Bytecodec
