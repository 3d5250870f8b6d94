import Verif.Spec.MeteredEnc
import Verif.Lemmas.InterchangeEnc
/-!
# Lemmas: the work of encoders
-/
namespace Bytecodec

open Spec

variable {σ τ α β : Type}

/-- What a call of `encode` is charged for. -/
def charged (r : Res Bytes) (cap : Nat) : Nat :=
  match r with
  | .ok bs => bs.length
  | _ => cap

/-- The accounts of an encoder: `price` covers the cost of everything done, and of all items that wait. -/
structure EncPays (a b : Nat) (M : Encoder τ α) (price : τ → Nat) (w : α → Nat) : Prop where
  fit : WritesWithin M
  encode : ∀ t cap e, price (M.encode t cap e).2 ≤ price t + a + b * charged (M.encode t cap e).1 cap
  start : ∀ t x, price (M.start t x).2 ≤ price t + w x

theorem EncPays.within {a b : Nat} {M : Encoder τ α} {price : τ → Nat} {w : α → Nat} (h : EncPays a b M price w) (t : τ)
    (cap : Nat) (e : Eos) : charged (M.encode t cap e).1 cap ≤ cap := by
  have := h.fit t cap e
  cases hd : M.encode t cap e with
  | mk r t' =>
    rw [hd] at this
    cases r with
    | ok bs => exact this bs t' rfl
    | _ => exact Nat.le_refl _

theorem charge_mono {p q a b m n : Nat} (h : p ≤ q + a + b * m) (hmn : m ≤ n) : p ≤ q + a + b * n := by
  have := Nat.mul_le_mul_left b hmn
  omega

theorem EncPays.leaf (E : Encoder σ α) (h : WritesWithin E) :
    EncPays 1 0 (countedEncoder E) (fun t => t.2.total) (fun _ => 1) where
  fit := by
    rintro ⟨s, c⟩ cap e bs ⟨s', c'⟩ hd
    simp only [countedEncoder, Prod.mk.injEq] at hd
    exact h s cap e bs (E.encode s cap e).2 (by rw [← hd.1])
  encode := by
    intro t cap e
    simp only [countedEncoder, EncCalls.total]
    omega
  start := by
    intro t x
    simp only [countedEncoder, EncCalls.total]
    omega

theorem EncPays.weaken {a b a' b' : Nat} {M : Encoder τ α} {price : τ → Nat} {w : α → Nat} (ha : a ≤ a') (hb : b ≤ b')
    (h : EncPays a b M price w) : EncPays a' b' M price w where
  fit := h.fit
  encode := by
    intro t cap e
    have := h.encode t cap e
    have := Nat.mul_le_mul_right (charged (M.encode t cap e).1 cap) hb
    omega
  start := h.start

theorem EncPays.mapErr {a b : Nat} {M : Encoder τ α} {price : τ → Nat} {w : α → Nat} (h : EncPays a b M price w)
    (f : ErrorKind → ErrorKind) : EncPays a b (mapErrEncoder M f) price w where
  fit := by
    intro t cap e bs t' hd
    simp only [mapErrEncoder, Prod.mk.injEq] at hd
    refine h.fit t cap e bs (M.encode t cap e).2 ?_
    revert hd
    cases M.encode t cap e with
    | mk r u =>
      cases r with
      | ok bs' => intro hd; simp only [Res.mapErr, Res.ok.injEq] at hd; simp [hd.1]
      | _ => intro hd; cases hd.1
  encode := by
    intro t cap e
    have := h.encode t cap e
    simp only [mapErrEncoder]
    revert this
    cases M.encode t cap e with
    | mk r u => cases r <;> exact id
  start := fun t x => h.start t x

theorem EncPays.mapFrom {a b : Nat} {M : Encoder τ α} {price : τ → Nat} {w : α → Nat} (h : EncPays a b M price w)
    (f : β → α) : EncPays a b (mapFromEncoder M f) price (fun x => w (f x)) where
  fit := h.fit
  encode := h.encode
  start := fun t x => h.start t (f x)

theorem EncPays.tryMapFrom {a b : Nat} {M : Encoder τ α} {price : τ → Nat} {w : α → Nat} (h : EncPays a b M price w)
    (f : β → Except ErrorKind α) : EncPays a b (tryMapFromEncoder M f) price
      (fun x => match f x with | .ok y => w y | .error _ => 0) where
  fit := h.fit
  encode := h.encode
  start := by
    intro t x
    simp only [tryMapFromEncoder]
    cases f x with
    | ok y => exact h.start t y
    | error k => exact Nat.le_refl _

theorem EncPays.optional {a b : Nat} {M : Encoder τ α} {price : τ → Nat} {w : α → Nat} (h : EncPays a b M price w) :
    EncPays a b (optionalEncoder M) price (fun x => x.elim 0 w) where
  fit := h.fit
  encode := h.encode
  start := by
    intro t x
    cases x with
    | some y => exact h.start t y
    | none => exact Nat.le_refl _

theorem EncPays.length {a b : Nat} {M : Encoder τ α} {price : τ → Nat} {w : α → Nat} (h : EncPays a b M price w) :
    EncPays a b (lengthEncoder M).toEncoder (fun u => price u.inner) w where
  fit := by
    rintro t cap e bs t' hd
    simp only [lengthEncoder] at hd
    split at hd
    · cases hd
    · rename_i hne
      have hl : (if cap < t.remaining then cap else t.remaining) ≤ cap := by split <;> omega
      generalize (if cap < t.remaining then cap else t.remaining) = limit at hd hl
      generalize (if cap < t.remaining then e else Eos.new true) = e' at hd
      cases hm : M.encode t.inner limit e' with
      | mk r i =>
        rw [hm] at hd
        cases r with
        | ok bs' =>
          simp only [Res.step] at hd
          split at hd
          · cases hd
          · split at hd
            · cases hd
            · cases hd
              have := h.fit _ _ _ _ _ hm
              omega
        | _ => cases hd
  encode := by
    intro t cap e
    simp only [lengthEncoder]
    split
    · dsimp only; omega
    · rename_i hne
      have hl : (if cap < t.remaining then cap else t.remaining) ≤ cap := by split <;> omega
      generalize (if cap < t.remaining then cap else t.remaining) = limit at hl ⊢
      generalize (if cap < t.remaining then e else Eos.new true) = e'
      have h1 := h.encode t.inner limit e'
      have h2 := h.within t.inner limit e'
      cases hm : M.encode t.inner limit e' with
      | mk r i =>
        rw [hm] at h1 h2
        cases r with
        | ok bs =>
          simp only [Res.step]
          split
          · exact charge_mono h1 (Nat.le_trans h2 hl)
          · split
            · exact charge_mono h1 (Nat.le_trans h2 hl)
            · exact h1
        | _ => exact charge_mono h1 (Nat.le_trans h2 hl)
  start := by
    intro t x
    simp only [lengthEncoder]
    split
    · have := h.start t.inner x
      cases hm : M.start t.inner x with
      | mk r i => rw [hm] at this; cases r <;> exact this
    · dsimp only; omega

theorem EncPays.maxBytes {a b : Nat} {M : Encoder τ α} {price : τ → Nat} {w : α → Nat} (h : EncPays a b M price w) :
    EncPays a b (maxBytesEncoder M) (fun u => price u.inner) w where
  fit := by
    rintro t cap e bs t' hd
    simp only [maxBytesEncoder] at hd
    cases hm : M.encode t.inner cap e with
    | mk r i =>
      rw [hm] at hd
      cases r with
      | ok bs' =>
        simp only [Res.step] at hd
        split at hd
        · cases hd
        · split at hd <;> (cases hd; exact h.fit _ _ _ _ _ hm)
      | _ => cases hd
  encode := by
    intro t cap e
    simp only [maxBytesEncoder]
    have h1 := h.encode t.inner cap e
    have h2 := h.within t.inner cap e
    cases hm : M.encode t.inner cap e with
    | mk r i =>
      rw [hm] at h1 h2
      cases r with
      | ok bs =>
        simp only [Res.step]
        split
        · exact charge_mono h1 h2
        · split <;> exact h1
      | _ => exact h1
  start := by
    intro t x
    simp only [maxBytesEncoder]
    have := h.start t.inner x
    cases hm : M.start t.inner x with
    | mk r i => rw [hm] at this; cases r <;> exact this

theorem EncPays.slice {a b : Nat} {M : Encoder τ α} {price : τ → Nat} {w : α → Nat} (h : EncPays a b M price w) :
    EncPays a b (sliceEncoder M) (fun u => price u.inner) w where
  fit := by
    rintro t cap e bs t' hd
    simp only [sliceEncoder] at hd
    split at hd
    · rename_i e' _
      cases hm : M.encode t.inner (min cap t.consumable) e' with
      | mk r i =>
        rw [hm] at hd
        cases r with
        | ok bs' =>
          simp only [Res.step] at hd
          split at hd
          · cases hd
          · cases hd
            have := h.fit _ _ _ _ _ hm
            omega
        | _ => cases hd
    · cases hd
  encode := by
    intro t cap e
    simp only [sliceEncoder]
    split
    · rename_i e' _
      have h1 := h.encode t.inner (min cap t.consumable) e'
      have h2 := h.within t.inner (min cap t.consumable) e'
      have h3 := Nat.le_trans h2 (Nat.min_le_left cap t.consumable)
      cases hm : M.encode t.inner (min cap t.consumable) e' with
      | mk r i =>
        rw [hm] at h1 h3
        cases r with
        | ok bs =>
          simp only [Res.step]
          split
          · exact charge_mono h1 h3
          · exact h1
        | _ => exact charge_mono h1 h3
    · dsimp only; omega
  start := by
    intro t x
    simp only [sliceEncoder]
    have := h.start t.inner x
    cases hm : M.start t.inner x with
    | mk r i => rw [hm] at this; cases r <;> exact this

theorem EncPays.last {a b : Nat} {M : Encoder τ α} {price : τ → Nat} {w : α → Nat} (h : EncPays a b M price w) :
    EncPays a b (lastEncoder M) (fun u => price u.inner + u.item.elim 0 w) Empty.elim where
  fit := by
    rintro t cap e bs t' hd
    have go : ∀ (u : LastState τ α), Res.step (M.encode u.inner cap e) (fun i => { u with inner := i }) (fun bs i =>
        ((.ok bs, { u with inner := i }) : Res Bytes × LastState τ α)) = (.ok bs, t') → bs.length ≤ cap := by
      intro u hd
      cases hm : M.encode u.inner cap e with
      | mk r i =>
        rw [hm] at hd
        cases r with
        | ok bs' => cases hd; exact h.fit _ _ _ _ _ hm
        | _ => cases hd
    simp only [lastEncoder] at hd
    split at hd
    · split at hd
      · rename_i x _
        cases hm : M.start t.inner x with
        | mk r i =>
          rw [hm] at hd
          cases r with
          | ok _ => exact go ⟨i, none⟩ hd
          | _ => cases hd
      · exact go t hd
    · exact go t hd
  encode := by
    intro t cap e
    have go : ∀ (u : LastState τ α) (x : Res Bytes × LastState τ α), x = Res.step (M.encode u.inner cap e)
        (fun i => { u with inner := i }) (fun bs i => ((.ok bs, { u with inner := i }) : Res Bytes × LastState τ α)) →
        price x.2.inner + x.2.item.elim 0 w ≤ price u.inner + u.item.elim 0 w + a + b * charged x.1 cap := by
      intro u x hx
      have := h.encode u.inner cap e
      cases hm : M.encode u.inner cap e with
      | mk r i =>
        rw [hm] at hx this
        cases r <;> (subst hx; simp only [Res.step, charged] at this ⊢; omega)
    simp only [lastEncoder]
    split
    · split
      · rename_i x hx
        have hst := h.start t.inner x
        cases hm : M.start t.inner x with
        | mk r i =>
          rw [hm] at hst
          cases r with
          | ok _ =>
            have := go ⟨i, none⟩ _ rfl
            simp only [Res.step, hx, Option.elim] at this hst ⊢
            omega
          | _ => simp only [Res.step, hx, Option.elim] at hst ⊢; omega
      · exact go t _ rfl
    · exact go t _ rfl
  start := fun _ x => x.elim

section
variable {a b : Nat} {M : Encoder τ α} {price : τ → Nat} {w : α → Nat}

/-- One part of a sequence. -/
theorem EncPays.tryEncode (h : EncPays a b M price w) (t : τ) (out : Bytes) (cap : Nat) (e : Eos) (hl : out.length ≤ cap) :
    match Bytecodec.tryEncode M t out cap e with
    | .next o t' => out.length ≤ o.length ∧ o.length ≤ cap ∧ price t' ≤ price t + a + b * (o.length - out.length)
    | .ret r t' => charged r cap ≤ cap ∧ out.length ≤ charged r cap ∧ price t' ≤ price t + a + b * (charged r cap - out.length) := by
  unfold Bytecodec.tryEncode
  by_cases hi : M.isIdle t = true
  · rw [if_pos hi]
    exact ⟨Nat.le_refl _, hl, by omega⟩
  · rw [if_neg hi, if_neg (by omega)]
    have h1 := h.encode t (cap - out.length) e
    have h2 := h.within t (cap - out.length) e
    cases hm : M.encode t (cap - out.length) e with
    | mk r t' =>
      rw [hm] at h1 h2
      cases r with
      | ok bs =>
        simp only [charged] at h1 h2
        dsimp only
        by_cases hi' : M.isIdle t' = true
        · rw [if_pos hi']
          simp only [List.length_append]
          refine ⟨by omega, by omega, ?_⟩
          rw [Nat.add_sub_cancel_left]
          exact h1
        · rw [if_neg hi']
          simp only [charged, List.length_append]
          refine ⟨by omega, by omega, ?_⟩
          rw [Nat.add_sub_cancel_left]
          exact h1
      | _ => exact ⟨Nat.le_refl _, hl, h1⟩

theorem EncPays.pair {τ0 α0 τ1 α1 : Type} {a0 a1 b : Nat} {M0 : Encoder τ0 α0} {p0 : τ0 → Nat} {w0 : α0 → Nat}
    {M1 : Encoder τ1 α1} {p1 : τ1 → Nat} {w1 : α1 → Nat} (h0 : EncPays a0 b M0 p0 w0) (h1 : EncPays a1 b M1 p1 w1) :
    EncPays (a0 + a1) b (tupleEncoder2 M0 M1) (fun u => p0 u.1 + p1 u.2) (fun x => w0 x.1 + w1 x.2) where
  fit := by
    rintro ⟨t0, t1⟩ cap e bs t' hd
    simp only [tupleEncoder2] at hd
    have k0 := h0.tryEncode t0 [] cap e (Nat.zero_le _)
    cases ht : Bytecodec.tryEncode M0 t0 [] cap e with
    | ret r u => rw [ht] at hd k0; cases hd; exact k0.1
    | next o u =>
      rw [ht] at hd k0
      dsimp only at hd k0
      have k1 := h1.tryEncode t1 o cap e k0.2.1
      cases ht1 : Bytecodec.tryEncode M1 t1 o cap e with
      | ret r u => rw [ht1] at hd k1; cases hd; exact k1.1
      | next o' u => rw [ht1] at hd k1; cases hd; exact k1.2.1
  encode := by
    rintro ⟨t0, t1⟩ cap e
    simp only [tupleEncoder2]
    have k0 := h0.tryEncode t0 [] cap e (Nat.zero_le _)
    cases ht : Bytecodec.tryEncode M0 t0 [] cap e with
    | ret r u =>
      rw [ht] at k0
      simp only [List.length_nil, Nat.sub_zero] at k0 ⊢
      omega
    | next o u =>
      rw [ht] at k0
      simp only [List.length_nil, Nat.sub_zero] at k0
      have k1 := h1.tryEncode t1 o cap e k0.2.1
      dsimp only
      cases ht1 : Bytecodec.tryEncode M1 t1 o cap e with
      | ret r v =>
        rw [ht1] at k1
        dsimp only at k1 ⊢
        have : b * o.length + b * (charged r cap - o.length) = b * charged r cap := by
          rw [← Nat.mul_add]; congr 1; omega
        omega
      | next o' v =>
        rw [ht1] at k1
        dsimp only at k1 ⊢
        have : b * o.length + b * (o'.length - o.length) = b * o'.length := by
          rw [← Nat.mul_add]; congr 1; omega
        simp only [charged]
        omega
  start := by
    rintro ⟨t0, t1⟩ ⟨x0, x1⟩
    simp only [tupleEncoder2]
    have k0 := h0.start t0 x0
    have k1 := h1.start t1 x1
    cases hm : M0.start t0 x0 with
    | mk r u =>
      rw [hm] at k0
      cases r with
      | ok _ =>
        simp only [Res.step]
        cases hm1 : M1.start t1 x1 with
        | mk r' v =>
          rw [hm1] at k1
          cases r' <;> (simp only [Res.step] at k0 k1 ⊢; omega)
      | _ => simp only [Res.step] at k0 ⊢; omega

theorem EncPays.startNext (h : EncPays a b M price w) : ∀ (items : List α) (t : τ),
    match Bytecodec.startNext M t items with
    | .busy t' rest => price t' + (rest.map w).sum ≤ price t + (items.map w).sum
    | .exhausted t' => price t' ≤ price t + (items.map w).sum
    | .failed r t' rest => r.isOk = false ∧ price t' + (rest.map w).sum ≤ price t + (items.map w).sum := by
  intro items
  induction items with
  | nil =>
    intro t
    unfold Bytecodec.startNext
    split
    · rename_i h; split at h <;> cases h; exact Nat.le_refl _
    · rename_i h; split at h <;> cases h; exact Nat.le_refl _
    · rename_i h; split at h <;> cases h
  | cons x xs ih =>
    intro t
    have h1 := h.start t x
    simp only [List.map_cons, List.sum_cons]
    rw [Bytecodec.startNext]
    cases hi : M.isIdle t with
    | false =>
      simp only [Bool.false_eq_true, if_false, List.map_cons, List.sum_cons]
      exact Nat.le_refl _
    | true =>
      simp only [if_true]
      cases hm : M.start t x with
      | mk r t' =>
        rw [hm] at h1
        dsimp only at h1
        cases r with
        | ok _ =>
          have := ih t'
          dsimp only
          revert this
          cases Bytecodec.startNext M t' xs <;> dsimp only <;> intro this
          · omega
          · omega
          · exact ⟨this.1, by omega⟩
        | _ => exact ⟨rfl, by omega⟩

theorem EncPays.repeatLoop (h : EncPays a b M price w) (cap : Nat) (e : Eos) : ∀ (k : Nat) (out : Bytes) (t : τ)
    (items : Option (List α)), cap + 1 - out.length ≤ k → out.length ≤ cap →
    out.length ≤ charged (repeatLoop M cap e out t items).1 cap ∧ charged (repeatLoop M cap e out t items).1 cap ≤ cap ∧
    price (repeatLoop M cap e out t items).2.inner + (((repeatLoop M cap e out t items).2.items.getD []).map w).sum ≤
      price t + ((items.getD []).map w).sum + a + (a + b) * (charged (repeatLoop M cap e out t items).1 cap - out.length) := by
  intro k
  induction k with
  | zero => intro out t items hk hl; omega
  | succ k ih =>
    intro out t items hk hl
    rw [Bytecodec.repeatLoop]
    have hs := h.startNext (items.getD []) t
    have hleft : ∀ rest : List α, (((items.map fun _ => rest).getD []).map w).sum ≤ (rest.map w).sum := by
      intro rest
      cases items
      · exact Nat.zero_le _
      · exact Nat.le_refl _
    cases hn : Bytecodec.startNext M t (items.getD []) with
    | exhausted t' =>
      rw [hn] at hs
      simp only [charged, Option.getD_none, List.map_nil, List.sum_nil, Nat.sub_self] at hs ⊢
      refine ⟨Nat.le_refl _, hl, by omega⟩
    | failed r t' rest =>
      rw [hn] at hs
      have := hleft rest
      cases r with
      | ok _ => cases hs.1
      | _ =>
        simp only [charged, Res.failAs] at hs ⊢
        exact ⟨hl, Nat.le_refl _, by omega⟩
    | busy t' rest =>
      rw [hn] at hs
      dsimp only at hs ⊢
      rw [if_neg (by omega)]
      have h1 := h.encode t' (cap - out.length) e
      have h2 := h.within t' (cap - out.length) e
      have h3 := hleft rest
      have hfail : ∀ {n : Nat}, b * n ≤ (a + b) * n := fun {n} => Nat.mul_le_mul_right n (by omega)
      cases hm : M.encode t' (cap - out.length) e with
      | mk r t'' =>
        rw [hm] at h1 h2
        cases r with
        | ok bs =>
          simp only [charged] at h1 h2
          dsimp only
          split
          · rename_i h0
            rw [h0] at h1
            simp only [charged, Nat.sub_self]
            exact ⟨Nat.le_refl _, hl, by omega⟩
          · rename_i h0
            have hr := ih (out ++ bs) t'' (items.map fun _ => rest)
              (by rw [List.length_append]; omega) (by rw [List.length_append]; omega)
            rw [List.length_append] at hr
            generalize Bytecodec.repeatLoop M cap e (out ++ bs) t'' (items.map fun _ => rest) = z at hr ⊢
            obtain ⟨k1, k2, k3⟩ := hr
            refine ⟨by omega, k2, ?_⟩
            have hsplit : (a + b) * (charged z.1 cap - out.length) =
                (a + b) * bs.length + (a + b) * (charged z.1 cap - (out.length + bs.length)) := by
              rw [← Nat.mul_add]; congr 1; omega
            have hbs : a + b * bs.length ≤ (a + b) * bs.length := by
              rw [Nat.add_mul]
              have : a ≤ a * bs.length := Nat.le_mul_of_pos_right a (by omega)
              omega
            omega
        | _ =>
          simp only [charged] at h1 h2 ⊢
          have := hfail (n := cap - out.length)
          exact ⟨hl, Nat.le_refl _, by omega⟩

theorem EncPays.repeat (h : EncPays a b M price w) :
    EncPays a (a + b) (repeatEncoder M) (fun u => price u.inner + ((u.items.getD []).map w).sum)
      (fun xs => (xs.map w).sum) where
  fit := by
    intro t cap e bs t' hd
    have := (h.repeatLoop cap e (cap + 1) [] t.inner t.items (by simp) (Nat.zero_le _)).2.1
    rw [show Bytecodec.repeatLoop M cap e [] t.inner t.items = (.ok bs, t') from hd] at this
    exact this
  encode := by
    intro t cap e
    have := (h.repeatLoop cap e (cap + 1) [] t.inner t.items (by simp) (Nat.zero_le _)).2.2
    simpa only [repeatEncoder, List.length_nil, Nat.sub_zero] using this
  start := by
    intro t xs
    simp only [repeatEncoder]
    split
    · rename_i hn
      have : t.items = none := by simpa using hn
      simp only [this, Option.getD_some, Option.getD_none, List.map_nil, List.sum_nil]
      omega
    · dsimp only; omega

end

/-- The accounts of a composed encoder. -/
theorem meteredEnc_pays {a b c : Nat} {E : Encoder σ α} {s : σ} {M : Encoder τ α} {t : τ} {cost : τ → Nat} {w : α → Nat}
    (h : MeteredEnc a b c E s M t cost w) :
    ∃ price : τ → Nat, EncPays a b M price w ∧ price t = c ∧ ∀ u, cost u ≤ price u := by
  induction h with
  | leaf E s hw => exact ⟨_, .leaf E hw, rfl, fun _ => Nat.le_refl _⟩
  | weaken ha hb _ ih => obtain ⟨p, h1, h2, h3⟩ := ih; exact ⟨p, h1.weaken ha hb, h2, h3⟩
  | mapErr f _ ih => obtain ⟨p, h1, h2, h3⟩ := ih; exact ⟨p, h1.mapErr f, h2, h3⟩
  | mapFrom f _ ih => obtain ⟨p, h1, h2, h3⟩ := ih; exact ⟨p, h1.mapFrom f, h2, h3⟩
  | tryMapFrom f _ ih => obtain ⟨p, h1, h2, h3⟩ := ih; exact ⟨p, h1.tryMapFrom f, h2, h3⟩
  | optional _ ih => obtain ⟨p, h1, h2, h3⟩ := ih; exact ⟨p, h1.optional, h2, h3⟩
  | length n _ ih => obtain ⟨p, h1, h2, h3⟩ := ih; exact ⟨_, h1.length, h2, fun u => h3 u.inner⟩
  | maxBytes n _ ih => obtain ⟨p, h1, h2, h3⟩ := ih; exact ⟨_, h1.maxBytes, h2, fun u => h3 u.inner⟩
  | slice n _ ih => obtain ⟨p, h1, h2, h3⟩ := ih; exact ⟨_, h1.slice, h2, fun u => h3 u.inner⟩
  | last x _ ih =>
    obtain ⟨p, h1, h2, h3⟩ := ih
    refine ⟨_, h1.last, by simp [LastState.new, h2], fun u => ?_⟩
    have := h3 u.inner
    dsimp only
    omega
  | pair _ _ ih0 ih1 =>
    obtain ⟨p0, h1, h2, h3⟩ := ih0
    obtain ⟨p1, k1, k2, k3⟩ := ih1
    refine ⟨_, h1.pair k1, by simp only [h2, k2], fun u => ?_⟩
    have := h3 u.1
    have := k3 u.2
    dsimp only
    omega
  | «repeat» _ ih =>
    obtain ⟨p, h1, h2, h3⟩ := ih
    refine ⟨_, h1.repeat, by simp [RepeatState.new, h2], fun u => ?_⟩
    have := h3 u.inner
    dsimp only
    omega

theorem simE_counted (E : Encoder σ α) : SimE E (countedEncoder E) (fun s t => s = t.1) where
  idle := by rintro s t rfl; rfl
  req := by rintro s t rfl; rfl
  encode := by
    rintro s ⟨_, c⟩ rfl cap e
    exact ⟨rfl, rfl⟩
  start := by
    rintro s ⟨_, c⟩ rfl x
    exact ⟨rfl, rfl⟩

theorem meteredEnc_exchanged {a b c : Nat} {E : Encoder σ α} {s : σ} {M : Encoder τ α} {t : τ} {cost : τ → Nat} {w : α → Nat}
    (h : MeteredEnc a b c E s M t cost w) : ExchangedE E s M t := by
  induction h with
  | leaf E s _ => exact .part ((simE_counted E).alike rfl)
  | weaken _ _ _ ih => exact ih
  | mapErr f _ ih => exact .mapErr f ih
  | mapFrom f _ ih => exact .mapFrom f ih
  | tryMapFrom f _ ih => exact .tryMapFrom f ih
  | optional _ ih => exact .optional ih
  | length n _ ih => exact .length n ih
  | maxBytes n _ ih => exact .maxBytes n ih
  | slice n _ ih => exact .slice n ih
  | last x _ ih => exact .last x ih
  | pair _ _ ih0 ih1 => exact .pair ih0 ih1
  | «repeat» _ ih => exact .repeat ih

theorem EncPays.session {a b : Nat} {M : Encoder τ α} {price : τ → Nat} {w : α → Nat} (h : EncPays a b M price w)
    (calls : List (ECall α)) : ∀ t, price (afterE M t calls) ≤
      price t + a * encodesIn calls + b * bytesIn calls (observeE M t calls) + itemsIn w calls := by
  induction calls with
  | nil => intro t; simp [afterE, encodesIn, bytesIn, itemsIn]
  | cons c cs ih =>
    intro t
    have hi := ih (ecallState M t c)
    rw [show afterE M t (c :: cs) = afterE M (ecallState M t c) cs from rfl]
    cases c with
    | start x =>
      have := h.start t x
      simp only [ecallState, observeE, encodesIn, bytesIn, itemsIn] at hi ⊢
      omega
    | encode cap e =>
      have h1 := h.encode t cap e
      have h2 : (ecallAnswer M t (.encode cap e)).bytes cap = charged (M.encode t cap e).1 cap := by
        simp only [ecallAnswer]
        cases (M.encode t cap e).1 <;> rfl
      simp only [observeE, encodesIn, bytesIn, itemsIn, h2] at hi ⊢
      simp only [ecallState, Nat.mul_add, Nat.mul_one] at hi ⊢
      omega

end Bytecodec
