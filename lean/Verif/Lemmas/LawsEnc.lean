import Verif.Lemmas.Laws
/-!
# Lemmas: compositions of encoders that are alike
-/
namespace Bytecodec

open Spec

variable {σ τ α β γ : Type}

/-! ## Mapping -/

theorem mapFrom_id_eq (E : Encoder σ α) : mapFromEncoder E (fun x => x) = E := rfl

theorem mapFrom_mapFrom_eq (E : Encoder σ α) (f : β → α) (g : γ → β) :
    mapFromEncoder (mapFromEncoder E f) g = mapFromEncoder E (fun x => f (g x)) := rfl

theorem tryMapFrom_ok_eq (E : Encoder σ α) (f : β → α) :
    tryMapFromEncoder E (fun x => .ok (f x)) = mapFromEncoder E f := rfl

theorem tryMapFrom_tryMapFrom_eq (E : Encoder σ α) (f : β → Except ErrorKind α) (g : γ → Except ErrorKind β) :
    tryMapFromEncoder (tryMapFromEncoder E f) g = tryMapFromEncoder E (fun x => g x >>= f) := by
  refine Encoder.ext' (fun _ _ _ => rfl) (fun s x => ?_) (fun _ => rfl) fun _ => rfl
  simp only [tryMapFromEncoder, bind]
  cases g x <;> rfl

theorem mapErrE_id_eq (E : Encoder σ α) : mapErrEncoder E (fun k => k) = E :=
  Encoder.ext' (fun _ _ _ => Prod.ext (Res.mapErr_id _) rfl) (fun _ _ => Prod.ext (Res.mapErr_id _) rfl) (fun _ => rfl)
    fun _ => rfl

theorem mapErrE_mapErr_eq (E : Encoder σ α) (f g : ErrorKind → ErrorKind) :
    mapErrEncoder (mapErrEncoder E f) g = mapErrEncoder E (fun k => g (f k)) :=
  Encoder.ext' (fun _ _ _ => Prod.ext (Res.mapErr_mapErr _ _ _) rfl)
    (fun _ _ => Prod.ext (Res.mapErr_mapErr _ _ _) rfl) (fun _ => rfl) fun _ => rfl

theorem mapErrE_mapFrom_eq (E : Encoder σ α) (f : β → α) (g : ErrorKind → ErrorKind) :
    mapErrEncoder (mapFromEncoder E f) g = mapFromEncoder (mapErrEncoder E g) f := rfl

theorem mapErrE_tryMapFrom_eq (E : Encoder σ α) (f : β → Except ErrorKind α) (g : ErrorKind → ErrorKind) :
    mapErrEncoder (tryMapFromEncoder E f) g = tryMapFromEncoder (mapErrEncoder E g) (fun x => (f x).mapError g) := by
  refine Encoder.ext' (fun _ _ _ => rfl) (fun s x => ?_) (fun _ => rfl) fun _ => rfl
  simp only [tryMapFromEncoder, mapErrEncoder]
  cases f x <;> rfl

/-! ## `map_from` under the other combinators -/

theorem optional_mapFrom_eq (E : Encoder σ α) (f : β → α) :
    optionalEncoder (mapFromEncoder E f) = mapFromEncoder (optionalEncoder E) (Option.map f) := by
  refine Encoder.ext' (fun _ _ _ => rfl) (fun s x => ?_) (fun _ => rfl) fun _ => rfl
  cases x <;> rfl

theorem length_mapFrom_eq (E : Encoder σ α) (f : β → α) :
    (lengthEncoder (mapFromEncoder E f)).toEncoder = mapFromEncoder (lengthEncoder E).toEncoder f := rfl

theorem maxBytes_mapFrom_eq (E : Encoder σ α) (f : β → α) :
    maxBytesEncoder (mapFromEncoder E f) = mapFromEncoder (maxBytesEncoder E) f := rfl

theorem slice_mapFrom_eq (E : Encoder σ α) (f : β → α) :
    sliceEncoder (mapFromEncoder E f) = mapFromEncoder (sliceEncoder E) f := rfl

theorem pair_mapFrom_eq {σ0 α0 β0 σ1 α1 β1 : Type} (E0 : Encoder σ0 α0) (E1 : Encoder σ1 α1) (f : β0 → α0) (g : β1 → α1) :
    tupleEncoder2 (mapFromEncoder E0 f) (mapFromEncoder E1 g) =
      mapFromEncoder (tupleEncoder2 E0 E1) (fun p => (f p.1, g p.2)) := rfl

theorem encodeAll_mapFrom {ω : Type} (E : Encoder σ α) (f : β → α) (W : Writer ω) (s : σ) (w : ω) :
    encodeAll (mapFromEncoder E f) W s w = encodeAll E W s w := by
  with_unfolding_all rfl

theorem encodeIntoBytes_mapFrom (E : Encoder σ α) (f : β → α) (s : σ) (x : β) :
    encodeIntoBytes (mapFromEncoder E f) s x = encodeIntoBytes E s (f x) := by
  simp only [encodeIntoBytes, encodeAll_mapFrom]
  rfl

theorem preEncode_mapFrom_eq (E : Encoder σ α) (f : β → α) :
    (preEncodeEncoder (mapFromEncoder E f)).toEncoder = mapFromEncoder (preEncodeEncoder E).toEncoder f := by
  refine Encoder.ext' (fun _ _ _ => rfl) (fun s x => ?_) (fun _ => rfl) fun _ => rfl
  simp only [preEncodeEncoder, encodeIntoBytes_mapFrom]
  rfl

theorem simE_last_mapFrom (E : Encoder σ α) (f : β → α) :
    SimE (lastEncoder (mapFromEncoder E f)) (lastEncoder E) (fun s t => s.inner = t.inner ∧ s.item.map f = t.item) where
  idle := by rintro ⟨s, x⟩ ⟨t, x'⟩ ⟨h1, h2⟩; simp only at h1 h2; subst h1 h2; cases x <;> rfl
  req := by rintro ⟨s, x⟩ ⟨t, x'⟩ ⟨h1, h2⟩; simp only at h1 h2; subst h1 h2; cases x <;> rfl
  encode := by
    rintro ⟨s, x⟩ ⟨t, x'⟩ ⟨h1, h2⟩ cap e
    simp only at h1 h2
    subst h1 h2
    simp only [lastEncoder, mapFromEncoder]
    refine Meet.ite _ ?_ (Meet.step (R := Eq) ⟨rfl, rfl⟩ (fun _ _ h => ⟨h, rfl⟩) fun _ _ _ h => .mk ⟨h, rfl⟩)
    cases x with
    | none => exact Meet.step (R := Eq) ⟨rfl, rfl⟩ (fun _ _ h => ⟨h, rfl⟩) fun _ _ _ h => .mk ⟨h, rfl⟩
    | some x =>
      refine Meet.step (R := Eq) ⟨rfl, rfl⟩ (fun _ _ h => ⟨h, rfl⟩) fun _ i j h => ?_
      subst h
      exact Meet.step (R := Eq) ⟨rfl, rfl⟩ (fun _ _ h => ⟨h, rfl⟩) fun _ _ _ h => .mk ⟨h, rfl⟩
  start := fun _ x => x.elim

/-- Two ends of the inner loop of `repeat`, with the items mapped. -/
inductive MappedS (f : β → α) : Started σ β → Started σ α → Prop
  | busy (s : σ) (rest : List β) : MappedS f (.busy s rest) (.busy s (rest.map f))
  | exhausted (s : σ) : MappedS f (.exhausted s) (.exhausted s)
  | failed (r : Res Unit) (s : σ) (rest : List β) : MappedS f (.failed r s rest) (.failed r s (rest.map f))

theorem startNext_mapFrom (E : Encoder σ α) (f : β → α) : ∀ (xs : List β) (s : σ),
    MappedS f (startNext (mapFromEncoder E f) s xs) (startNext E s (xs.map f)) := by
  intro xs
  induction xs with
  | nil =>
    intro s
    simp only [List.map_nil, startNext]
    rw [show (mapFromEncoder E f).isIdle s = E.isIdle s from rfl]
    split
    · exact .exhausted _
    · exact .busy _ []
  | cons x xs ih =>
    intro s
    simp only [List.map_cons, startNext]
    rw [show (mapFromEncoder E f).isIdle s = E.isIdle s from rfl]
    split
    · rw [show (mapFromEncoder E f).start s x = E.start s (f x) from rfl]
      generalize E.start s (f x) = p
      obtain ⟨r, s'⟩ := p
      cases r with
      | ok u => exact ih s'
      | _ => exact .failed _ _ _
    · exact .busy _ (x :: xs)

theorem repeatLoop_mapFrom (E : Encoder σ α) (f : β → α) (cap : Nat) (e : Eos) :
    ∀ (k : Nat) (out : Bytes) (items : Option (List β)) (s : σ), cap + 1 - out.length ≤ k →
    Meet (fun (s : RepeatState σ β) (t : RepeatState σ α) => s.inner = t.inner ∧ s.items.map (List.map f) = t.items)
      (repeatLoop (mapFromEncoder E f) cap e out s items) (repeatLoop E cap e out s (items.map (List.map f))) := by
  have hrest : ∀ (items : Option (List β)) (rest : List β),
      (items.map fun _ => rest).map (List.map f) = (items.map (List.map f)).map fun _ => rest.map f := by
    intro items rest; cases items <;> rfl
  intro k
  induction k with
  | zero =>
    intro out items s hk
    have hd : (items.map (List.map f)).getD [] = (items.getD []).map f := by cases items <;> rfl
    have a := startNext_mapFrom E f (items.getD []) s
    rw [repeatLoop, repeatLoop, hd]
    generalize startNext (mapFromEncoder E f) s (items.getD []) = p at a
    generalize startNext E s ((items.getD []).map f) = q at a
    cases a with
    | exhausted => exact ⟨rfl, rfl, rfl⟩
    | failed r s rest => exact ⟨rfl, rfl, hrest _ _⟩
    | busy s rest =>
      simp only
      rw [if_pos (by omega), if_pos (by omega)]
      exact ⟨rfl, rfl, hrest _ _⟩
  | succ k ih =>
    intro out items s hk
    have hd : (items.map (List.map f)).getD [] = (items.getD []).map f := by cases items <;> rfl
    have a := startNext_mapFrom E f (items.getD []) s
    rw [repeatLoop, repeatLoop, hd]
    generalize startNext (mapFromEncoder E f) s (items.getD []) = p at a
    generalize startNext E s ((items.getD []).map f) = q at a
    cases a with
    | exhausted => exact ⟨rfl, rfl, rfl⟩
    | failed r s rest => exact ⟨rfl, rfl, hrest _ _⟩
    | busy s rest =>
      simp only
      split
      · exact ⟨rfl, rfl, hrest _ _⟩
      · rw [show (mapFromEncoder E f).encode s (cap - out.length) e = E.encode s (cap - out.length) e from rfl]
        generalize E.encode s (cap - out.length) e = p
        obtain ⟨r, s'⟩ := p
        cases r with
        | ok bs =>
          simp only
          split
          · exact ⟨rfl, rfl, hrest _ _⟩
          · rw [← hrest]
            exact ih _ _ _ (by simp only [List.length_append]; omega)
        | _ => exact ⟨rfl, rfl, hrest _ _⟩

theorem simE_repeat_mapFrom (E : Encoder σ α) (f : β → α) :
    SimE (repeatEncoder (mapFromEncoder E f)) (mapFromEncoder (repeatEncoder E) (List.map f))
      (fun s t => s.inner = t.inner ∧ s.items.map (List.map f) = t.items) where
  idle := by rintro ⟨s, x⟩ ⟨t, x'⟩ ⟨h1, h2⟩; simp only at h1 h2; subst h1 h2; cases x <;> rfl
  req := by rintro ⟨s, x⟩ ⟨t, x'⟩ ⟨h1, h2⟩; simp only at h1 h2; subst h1 h2; cases x <;> rfl
  encode := by
    rintro ⟨s, x⟩ ⟨t, x'⟩ ⟨h1, h2⟩ cap e
    simp only at h1 h2
    subst h1 h2
    exact repeatLoop_mapFrom E f cap e _ _ _ _ (Nat.le_refl _)
  start := by
    rintro ⟨s, x⟩ ⟨t, x'⟩ ⟨h1, h2⟩ xs
    simp only at h1 h2
    subst h1 h2
    cases x <;> exact .mk ⟨rfl, rfl⟩

/-! ## Pairs -/

theorem simE_pair_assoc {σ0 α0 σ1 α1 σ2 α2 : Type} (E0 : Encoder σ0 α0) (E1 : Encoder σ1 α1) (E2 : Encoder σ2 α2) :
    SimE (mapFromEncoder (tupleEncoder2 (tupleEncoder2 E0 E1) E2) (fun p => ((p.1, p.2.1), p.2.2)))
      (tupleEncoder2 E0 (tupleEncoder2 E1 E2)) (fun s t => s.1.1 = t.1 ∧ s.1.2 = t.2.1 ∧ s.2 = t.2.2) where
  idle := by
    rintro ⟨⟨s0, s1⟩, s2⟩ ⟨t0, t1, t2⟩ ⟨h1, h2, h3⟩
    simp only at h1 h2 h3
    subst h1 h2 h3
    simp only [mapFromEncoder, tupleEncoder2, Bool.and_assoc]
  req := by
    rintro ⟨⟨s0, s1⟩, s2⟩ ⟨t0, t1, t2⟩ ⟨h1, h2, h3⟩
    simp only at h1 h2 h3
    subst h1 h2 h3
    simp only [mapFromEncoder, tupleEncoder2, enc_assoc, enc_zero]
  encode := by
    rintro ⟨⟨s0, s1⟩, s2⟩ ⟨t0, t1, t2⟩ ⟨h1, h2, h3⟩ cap e
    simp only at h1 h2 h3
    subst h1 h2 h3
    simp only [mapFromEncoder]
    rw [pair_encode, pair_encode]
    simp only [tryEncode_pair]
    rcases tryEncode E0 s0 [] cap e with ⟨o0, t0⟩ | ⟨r, t0⟩ <;> simp only [Flow.bind, Flow.done]
    rcases tryEncode E1 s1 o0 cap e with ⟨o1, t1⟩ | ⟨r, t1⟩ <;> simp only [Flow.bind, Flow.done]
    rcases tryEncode E2 s2 o1 cap e with ⟨o2, t2⟩ | ⟨r, t2⟩ <;> simp only [Flow.bind, Flow.done]
    all_goals exact .mk ⟨rfl, rfl, rfl⟩
  start := by
    rintro ⟨⟨s0, s1⟩, s2⟩ ⟨t0, t1, t2⟩ ⟨h1, h2, h3⟩ x
    simp only at h1 h2 h3
    subst h1 h2 h3
    simp only [mapFromEncoder, tupleEncoder2, Res.step_step, Res.step_ok_eq]
    refine Meet.step (R := Eq) ⟨rfl, rfl⟩ (fun _ _ h => ⟨h, rfl, rfl⟩) fun x0 i0 j0 h0 => ?_
    refine Meet.step (R := Eq) ⟨rfl, rfl⟩ (fun _ _ h => ⟨h0, h, rfl⟩) fun x1 i1 j1 h1 => ?_
    refine Meet.step (R := Eq) ⟨rfl, rfl⟩ (fun _ _ h => ⟨h0, h1, h⟩) fun x2 i2 j2 h2 => ?_
    exact .mk ⟨h0, h1, h2⟩

theorem tryEncode_mapErr (E : Encoder σ α) (g : ErrorKind → ErrorKind) (s o cap e) :
    tryEncode (mapErrEncoder E g) s o cap e =
      match tryEncode E s o cap e with
      | .ret r s' => .ret (r.mapErr g) s'
      | .next o s' => .next o s' := by
  unfold tryEncode
  by_cases h1 : E.isIdle s = true
  · rw [if_pos h1, if_pos (show (mapErrEncoder E g).isIdle s = true from h1)]
  · rw [if_neg h1, if_neg (show ¬ (mapErrEncoder E g).isIdle s = true from h1)]
    by_cases h2 : cap < o.length
    · rw [if_pos h2, if_pos h2]; rfl
    · rw [if_neg h2, if_neg h2]
      rw [show (mapErrEncoder E g).encode s (cap - o.length) e =
        ((E.encode s (cap - o.length) e).1.mapErr g, (E.encode s (cap - o.length) e).2) from rfl]
      generalize E.encode s (cap - o.length) e = p
      obtain ⟨r, s'⟩ := p
      cases r with
      | ok n =>
        simp only [Res.mapErr]
        by_cases h3 : E.isIdle s' = true
        · rw [if_pos h3, if_pos (show (mapErrEncoder E g).isIdle s' = true from h3)]
        · rw [if_neg h3, if_neg (show ¬ (mapErrEncoder E g).isIdle s' = true from h3)]
      | _ => rfl

theorem pairE_mapErr_eq {σ0 α0 σ1 α1 : Type} (E0 : Encoder σ0 α0) (E1 : Encoder σ1 α1) (g : ErrorKind → ErrorKind) :
    mapErrEncoder (tupleEncoder2 E0 E1) g = tupleEncoder2 (mapErrEncoder E0 g) (mapErrEncoder E1 g) := by
  refine Encoder.ext' (fun s b e => ?_) (fun s x => ?_) (fun _ => rfl) fun _ => rfl
  · simp only [tupleEncoder2, tryEncode_mapErr]
    simp only [mapErrEncoder]
    cases tryEncode E0 s.1 [] b e with
    | ret r s' => rfl
    | next o s' =>
      simp only
      cases tryEncode E1 s.2 o b e with
      | ret r s'' => rfl
      | next o s'' => rfl
  · simp only [tupleEncoder2, mapErrEncoder]
    generalize E0.start s.1 x.1 = p
    obtain ⟨r, s'⟩ := p
    cases r with
    | ok u =>
      simp only [Res.mapErr, Res.step]
      generalize E1.start s.2 x.2 = p
      obtain ⟨r, s''⟩ := p
      cases r <;> rfl
    | _ => rfl

/-! ## The same combinator twice -/

/-- An encoder that does not claim to have written more bytes than there was room for. -/
structure ModerateE (E : Encoder σ α) : Prop where
  le : ∀ s cap e bs s', E.encode s cap e = (.ok bs, s') → bs.length ≤ cap

theorem sliceE_encode_eq (E : Encoder σ α) (s : σ) (x cap : Nat) (e : Eos) :
    (sliceEncoder E).encode ⟨s, x⟩ cap e =
      match e.back (cap - min cap x) with
      | .ok e' =>
        Res.step (E.encode s (min cap x) e') (fun i => ⟨i, x⟩) fun bs i =>
          if x < bs.length then (.panic, ⟨i, x⟩) else (.ok bs, ⟨i, x - bs.length⟩)
      | _ => (.panic, ⟨s, x⟩) := rfl

theorem simE_slice_slice (E : Encoder σ α) (hE : ModerateE E) :
    SimE (sliceEncoder (sliceEncoder E)) (sliceEncoder E)
      (fun s t => s.inner.inner = t.inner ∧ t.consumable = min s.consumable s.inner.consumable) where
  idle := by rintro ⟨⟨s, x⟩, y⟩ ⟨t, z⟩ ⟨h1, h2⟩; simp only at h1; subst h1; rfl
  req := by rintro ⟨⟨s, x⟩, y⟩ ⟨t, z⟩ ⟨h1, h2⟩; simp only at h1; subst h1; rfl
  encode := by
    rintro ⟨⟨s, x⟩, y⟩ ⟨t, z⟩ ⟨h1, h2⟩ cap e
    simp only at h1 h2
    subst h1
    rw [sliceE_encode_eq (sliceEncoder E), sliceE_encode_eq E s z cap e]
    have hb := back_back e (cap - min cap y) (min cap y - min (min cap y) x)
    rw [show cap - min cap y + (min cap y - min (min cap y) x) = cap - min cap z by omega] at hb
    rw [← hb]
    cases e.back (cap - min cap y) with
    | ok e' =>
      simp only
      rw [sliceE_encode_eq E s x]
      cases e'.back (min cap y - min (min cap y) x) with
      | ok e'' =>
        simp only
        rw [show min (min cap y) x = min cap z by omega]
        have hm := hE.le s (min cap z) e''
        generalize E.encode s (min cap z) e'' = p at hm
        obtain ⟨r, i⟩ := p
        cases r with
        | ok n =>
          have := hm n i rfl
          simp only [Res.step]
          rw [if_neg (by omega), if_neg (by omega)]
          simp only
          rw [if_neg (by omega)]
          exact .mk ⟨rfl, by simp only; omega⟩
        | _ => exact .mk ⟨rfl, h2⟩
      | _ => exact .mk ⟨rfl, h2⟩
    | _ => exact .mk ⟨rfl, h2⟩
  start := by
    rintro ⟨⟨s, x⟩, y⟩ ⟨t, z⟩ ⟨h1, h2⟩ v
    simp only at h1 h2
    subst h1
    simp only [sliceEncoder, Res.step_step]
    refine Meet.step (R := Eq) ⟨rfl, rfl⟩ (fun _ _ h => ⟨h, h2⟩) fun _ _ _ h => .mk ⟨h, h2⟩

theorem maxBytesE_encode_eq (E : Encoder σ α) (s : σ) (c m cap : Nat) (e : Eos) :
    (maxBytesEncoder E).encode ⟨s, c, m⟩ cap e =
      Res.step (E.encode s cap e) (fun i => ⟨i, c, m⟩) fun bs i =>
        if m < c + bs.length then (.err .invalidInput, ⟨i, c + bs.length, m⟩)
        else if E.isIdle i then (.ok bs, ⟨i, 0, m⟩)
        else (.ok bs, ⟨i, c + bs.length, m⟩) := rfl

/-- How two limits, one within the other, relate to the smaller one: either none has been exceeded and all count the
same, or one of them, and the smaller one, has been exceeded for good. -/
def Nested (s : MaxBytesState (MaxBytesState σ)) (t : MaxBytesState σ) : Prop :=
  s.inner.inner = t.inner ∧ t.max = min s.max s.inner.max ∧
    ((s.consumed = t.consumed ∧ s.inner.consumed = t.consumed ∧ t.consumed ≤ t.max) ∨
      (t.max < t.consumed ∧ (s.max < s.consumed ∨ s.inner.max < s.inner.consumed)))

theorem simE_maxBytes_maxBytes (E : Encoder σ α) : SimE (maxBytesEncoder (maxBytesEncoder E)) (maxBytesEncoder E) Nested where
  idle := by rintro ⟨⟨s, c, x⟩, d, y⟩ ⟨t, f, z⟩ ⟨h1, h2⟩; simp only at h1; subst h1; rfl
  req := by rintro ⟨⟨s, c, x⟩, d, y⟩ ⟨t, f, z⟩ ⟨h1, h2⟩; simp only at h1; subst h1; rfl
  encode := by
    rintro ⟨⟨s, c, x⟩, d, y⟩ ⟨t, f, z⟩ ⟨h1, h2, h3⟩ cap e
    simp only at h1 h2 h3
    subst h1
    rw [maxBytesE_encode_eq (maxBytesEncoder E), maxBytesE_encode_eq E s f z, maxBytesE_encode_eq E s c x]
    generalize E.encode s cap e = p
    obtain ⟨r, i⟩ := p
    cases r with
    | ok bs =>
      simp only [Res.step]
      by_cases hz : z < f + bs.length
      · rw [if_pos hz]
        by_cases hx : x < c + bs.length
        · rw [if_pos hx]
          exact .mk ⟨rfl, h2, .inr ⟨hz, .inr hx⟩⟩
        · rw [if_neg hx]
          have hy : y < d + bs.length := by omega
          by_cases hi : E.isIdle i = true
          · rw [if_pos hi]
            simp only
            rw [if_pos hy]
            exact .mk ⟨rfl, h2, .inr ⟨hz, .inl hy⟩⟩
          · rw [if_neg hi]
            simp only
            rw [if_pos hy]
            exact .mk ⟨rfl, h2, .inr ⟨hz, .inl hy⟩⟩
      · have h4 : d = f ∧ c = f := by omega
        rw [if_neg hz, if_neg (show ¬ x < c + bs.length by omega)]
        by_cases hi : E.isIdle i = true
        · rw [if_pos hi]
          simp only
          rw [if_neg (show ¬ y < d + bs.length by omega), if_pos hi,
            if_pos (show (maxBytesEncoder E).isIdle ⟨i, 0, x⟩ = true from hi)]
          exact .mk ⟨rfl, h2, .inl ⟨rfl, rfl, Nat.zero_le _⟩⟩
        · rw [if_neg hi]
          simp only
          rw [if_neg (show ¬ y < d + bs.length by omega), if_neg hi,
            if_neg (show ¬ (maxBytesEncoder E).isIdle ⟨i, c + bs.length, x⟩ = true from hi)]
          exact .mk ⟨rfl, h2, .inl ⟨by simp only; omega, by simp only; omega, by simp only; omega⟩⟩
    | _ => exact .mk ⟨rfl, h2, h3⟩
  start := by
    rintro ⟨⟨s, c, x⟩, d, y⟩ ⟨t, f, z⟩ ⟨h1, h2, h3⟩ v
    simp only at h1 h2 h3
    subst h1
    simp only [maxBytesEncoder, Res.step_step]
    exact Meet.step (R := Eq) ⟨rfl, rfl⟩ (fun _ _ h => ⟨h, h2, h3⟩) fun _ _ _ h => .mk ⟨h, h2, h3⟩

theorem sliceE_mapErr_eq (E : Encoder σ α) (g : ErrorKind → ErrorKind) :
    mapErrEncoder (sliceEncoder E) g = sliceEncoder (mapErrEncoder E g) := by
  refine Encoder.ext' (fun s b e => ?_) (fun s x => ?_) (fun _ => rfl) fun _ => rfl
  · simp only [sliceEncoder, mapErrEncoder]
    cases e.back (b - min b s.consumable) with
    | ok e' =>
      simp only
      generalize E.encode s.inner _ e' = p
      obtain ⟨r, s'⟩ := p
      cases r with
      | ok n =>
        simp only [Res.mapErr, Res.step]
        by_cases h : s.consumable < n.length
        · rw [if_pos h]
        · rw [if_neg h]
      | _ => rfl
    | _ => rfl
  · simp only [sliceEncoder, mapErrEncoder]
    generalize E.start s.inner x = p
    obtain ⟨r, s'⟩ := p
    cases r <;> rfl

end Bytecodec
