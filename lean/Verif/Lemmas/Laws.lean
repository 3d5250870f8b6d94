import Verif.Lemmas.InterchangeEnc
import Verif.Lemmas.TupleNested
import Verif.Model.Forward
/-!
# Lemmas: compositions that are alike
-/
namespace Bytecodec

open Spec

variable {σ τ α β γ : Type}

theorem alike_of_eq {D D' : Decoder σ α} (h : D = D') (s : σ) : Alike D s D' s := h ▸ .refl _ _

theorem alikeE_of_eq {E E' : Encoder σ α} (h : E = E') (s : σ) : AlikeE E s E' s := h ▸ .refl _ _

/-! ## Pointers -/

theorem sim_pointer (D : Decoder σ α) : Sim (pointerDecoder D) D (fun s t => s.target = t) where
  idle := by rintro ⟨s⟩ t rfl; rfl
  req := by rintro ⟨s⟩ t rfl; rfl
  decode := by rintro ⟨s⟩ t rfl b e; exact ⟨rfl, rfl⟩
  finish := by rintro ⟨s⟩ t rfl; exact ⟨rfl, rfl⟩

theorem simE_pointer (E : Encoder σ α) : SimE (pointerEncoder E) E (fun s t => s.target = t) where
  idle := by rintro ⟨s⟩ t rfl; rfl
  req := by rintro ⟨s⟩ t rfl; rfl
  encode := by rintro ⟨s⟩ t rfl b e; exact ⟨rfl, rfl⟩
  start := by rintro ⟨s⟩ t rfl x; exact ⟨rfl, rfl⟩

/-! ## Decoders: mapping -/

theorem Res.step_id {p : Res α × σ} {k : α → σ → Res α × σ} (hk : ∀ x s, k x s = (.ok x, s)) : Res.step p id k = p := by
  obtain ⟨r, s⟩ := p
  cases r with
  | ok x => exact hk x s
  | _ => rfl

theorem map_id_eq (D : Decoder σ α) : mapDecoder D (fun x => x) = D :=
  Decoder.ext' (fun _ _ _ => rfl) (fun _ => Res.step_id fun _ _ => rfl) (fun _ => rfl) fun _ => rfl

theorem map_map_eq (D : Decoder σ α) (f : α → β) (g : β → γ) :
    mapDecoder (mapDecoder D f) g = mapDecoder D (fun x => g (f x)) :=
  Decoder.ext' (fun _ _ _ => rfl) (fun _ => Res.step_step _ _ _ _ _) (fun _ => rfl) fun _ => rfl

theorem tryMap_ok_eq (D : Decoder σ α) (f : α → β) : tryMapDecoder D (fun x => .ok (f x)) = mapDecoder D f := rfl

theorem tryMap_tryMap_eq (D : Decoder σ α) (f : α → Except ErrorKind β) (g : β → Except ErrorKind γ) :
    tryMapDecoder (tryMapDecoder D f) g = tryMapDecoder D (fun x => f x >>= g) := by
  refine Decoder.ext' (fun _ _ _ => rfl) (fun s => ?_) (fun _ => rfl) fun _ => rfl
  refine (Res.step_step _ _ _ _ _).trans ?_
  congr 1
  funext x s'
  simp only [bind]
  cases f x <;> rfl

theorem utf8_eq (D : Decoder σ Bytes) : utf8Decoder D =
    tryMapDecoder D (fun b => match fromUtf8 b with | some str => .ok str | none => .error .invalidInput) := by
  refine Decoder.ext' (fun _ _ _ => rfl) (fun s => ?_) (fun _ => rfl) fun _ => rfl
  simp only [utf8Decoder, tryMapDecoder]
  congr 1
  funext x s'
  cases fromUtf8 x <;> rfl

theorem Res.mapErr_id (r : Res α) : r.mapErr (fun k => k) = r := by cases r <;> rfl

theorem Res.mapErr_mapErr (r : Res α) (f g : ErrorKind → ErrorKind) :
    (r.mapErr f).mapErr g = r.mapErr (fun k => g (f k)) := by cases r <;> rfl

theorem mapErr_id_eq (D : Decoder σ α) : mapErrDecoder D (fun k => k) = D :=
  Decoder.ext' (fun _ _ _ => Prod.ext (Res.mapErr_id _) rfl) (fun _ => Prod.ext (Res.mapErr_id _) rfl) (fun _ => rfl)
    fun _ => rfl

theorem mapErr_mapErr_eq (D : Decoder σ α) (f g : ErrorKind → ErrorKind) :
    mapErrDecoder (mapErrDecoder D f) g = mapErrDecoder D (fun k => g (f k)) :=
  Decoder.ext' (fun _ _ _ => Prod.ext (Res.mapErr_mapErr _ _ _) rfl)
    (fun _ => Prod.ext (Res.mapErr_mapErr _ _ _) rfl) (fun _ => rfl) fun _ => rfl

theorem mapErr_map_eq (D : Decoder σ α) (f : α → β) (g : ErrorKind → ErrorKind) :
    mapErrDecoder (mapDecoder D f) g = mapDecoder (mapErrDecoder D g) f := by
  refine Decoder.ext' (fun _ _ _ => rfl) (fun s => ?_) (fun _ => rfl) fun _ => rfl
  simp only [mapErrDecoder, mapDecoder]
  generalize D.finish s = p
  obtain ⟨r, s'⟩ := p
  cases r <;> rfl

theorem mapErr_tryMap_eq (D : Decoder σ α) (f : α → Except ErrorKind β) (g : ErrorKind → ErrorKind) :
    mapErrDecoder (tryMapDecoder D f) g = tryMapDecoder (mapErrDecoder D g) (fun x => (f x).mapError g) := by
  refine Decoder.ext' (fun _ _ _ => rfl) (fun s => ?_) (fun _ => rfl) fun _ => rfl
  simp only [mapErrDecoder, tryMapDecoder]
  generalize D.finish s = p
  obtain ⟨r, s'⟩ := p
  cases r with
  | ok x => simp only [Res.step, Res.mapErr]; cases f x <;> rfl
  | _ => rfl

/-! ## Decoders: `map` under the other combinators -/

theorem omittable_map_eq (D : Decoder σ α) (f : α → β) :
    omittableDecoder (mapDecoder D f) = mapDecoder (omittableDecoder D) (Option.map f) := by
  refine Decoder.ext' (fun _ _ _ => rfl) (fun s => ?_) (fun _ => rfl) fun _ => rfl
  simp only [omittableDecoder, mapDecoder]
  split
  · rfl
  · rw [Res.step_step, Res.step_step]; rfl

theorem length_map_eq (D : Decoder σ α) (f : α → β) :
    lengthDecoder (mapDecoder D f) = mapDecoder (lengthDecoder D) f := by
  refine Decoder.ext' (fun _ _ _ => rfl) (fun s => ?_) (fun _ => rfl) fun _ => rfl
  simp only [lengthDecoder, mapDecoder]
  split
  · rw [Res.step_step, Res.step_step]; rfl
  · rfl

theorem maxBytes_map_eq (D : Decoder σ α) (f : α → β) :
    maxBytesDecoder (mapDecoder D f) = mapDecoder (maxBytesDecoder D) f := by
  refine Decoder.ext' (fun _ _ _ => rfl) (fun s => ?_) (fun _ => rfl) fun _ => rfl
  simp only [maxBytesDecoder, mapDecoder]
  rw [Res.step_step, Res.step_step]; rfl

theorem slice_map_eq (D : Decoder σ α) (f : α → β) :
    sliceDecoder (mapDecoder D f) = mapDecoder (sliceDecoder D) f := by
  refine Decoder.ext' (fun _ _ _ => rfl) (fun s => ?_) (fun _ => rfl) fun _ => rfl
  simp only [sliceDecoder, mapDecoder]
  rw [Res.step_step, Res.step_step]; rfl

theorem maybeEos_map_eq (D : Decoder σ α) (f : α → β) :
    maybeEosDecoder (mapDecoder D f) = mapDecoder (maybeEosDecoder D) f := by
  refine Decoder.ext' (fun _ _ _ => rfl) (fun s => ?_) (fun _ => rfl) fun _ => rfl
  simp only [maybeEosDecoder, mapDecoder]
  rw [Res.step_step, Res.step_step]; rfl

theorem sim_peekable_map (D : Decoder σ α) (f : α → β) :
    Sim (peekableDecoder (mapDecoder D f)) (mapDecoder (peekableDecoder D) f)
      (fun s t => s.inner = t.inner ∧ s.item = t.item.map f) where
  idle := by rintro ⟨s, x⟩ ⟨t, x'⟩ ⟨h1, h2⟩; simp only at h1 h2; subst h1 h2; cases x' <;> rfl
  req := by rintro ⟨s, x⟩ ⟨t, x'⟩ ⟨h1, h2⟩; simp only at h1 h2; subst h1 h2; cases x' <;> rfl
  decode := by
    rintro ⟨s, x⟩ ⟨t, x'⟩ ⟨h1, h2⟩ b e
    simp only at h1 h2
    subst h1 h2
    cases x' with
    | some y => exact .mk ⟨rfl, rfl⟩
    | none =>
      refine Meet.step (R := Eq) ⟨rfl, rfl⟩ (fun _ _ h => ⟨h, rfl⟩) fun n i j hij => ?_
      subst hij
      refine Meet.ite _ ?_ (.mk ⟨rfl, rfl⟩)
      simp only [mapDecoder]
      rw [Res.step_step]
      exact Meet.step (R := Eq) ⟨rfl, rfl⟩ (fun _ _ h => ⟨h, rfl⟩) fun _ _ _ h => .mk ⟨h, rfl⟩
  finish := by
    rintro ⟨s, x⟩ ⟨t, x'⟩ ⟨h1, h2⟩
    simp only at h1 h2
    subst h1 h2
    cases x' <;> exact .mk ⟨rfl, rfl⟩

theorem tryDecode_map (D : Decoder σ α) (f : α → β) (s o b e) :
    tryDecode (mapDecoder D f) s o b e = tryDecode D s o b e := rfl

theorem collectNLoop_map (D : Decoder σ α) (f : α → β) (b : Bytes) (e : Eos) : ∀ (n o : Nat) (s : σ) (items : List α),
    collectNLoop (mapDecoder D f) b e n o s (items.map f) =
      match collectNLoop D b e n o s items with
      | .done o s items n => .done o s (items.map f) n
      | .ret r s items n => .ret r s (items.map f) n := by
  intro n
  induction n with
  | zero => intros; rfl
  | succ n ih =>
    intro o s items
    simp only [collectNLoop, tryDecode_map]
    split
    · generalize tryDecode D s o b e = p
      cases p with
      | ret r s' => rfl
      | next o' s' =>
        simp only [mapDecoder]
        generalize D.finish s' = q
        obtain ⟨r, s''⟩ := q
        cases r with
        | ok x =>
          have := ih o' s'' (items ++ [x])
          simp only [List.map_append, List.map_cons, List.map_nil, mapDecoder] at this
          exact this
        | _ => rfl
    · rfl

theorem sim_collectN_map (D : Decoder σ α) (f : α → β) :
    Sim (collectNDecoder (mapDecoder D f)) (mapDecoder (collectNDecoder D) (List.map f))
      (fun s t => s.inner = t.inner ∧ s.remaining = t.remaining ∧ s.items = t.items.map f) where
  idle := by rintro ⟨s, n, x⟩ ⟨t, n', x'⟩ ⟨h1, h2, h3⟩; simp only at h1 h2 h3; subst h1 h2 h3; rfl
  req := by rintro ⟨s, n, x⟩ ⟨t, n', x'⟩ ⟨h1, h2, h3⟩; simp only at h1 h2 h3; subst h1 h2 h3; rfl
  decode := by
    rintro ⟨s, n, x⟩ ⟨t, n', x'⟩ ⟨h1, h2, h3⟩ b e
    simp only at h1 h2 h3
    subst h1 h2 h3
    simp only [collectNDecoder, mapDecoder]
    have := collectNLoop_map D f b e n 0 s x'
    simp only [mapDecoder] at this
    rw [this]
    generalize collectNLoop D b e n 0 s x' = p
    cases p with
    | ret r i items n => exact .mk ⟨rfl, rfl, rfl⟩
    | done o i items n => exact Meet.ite _ (.mk ⟨rfl, rfl, rfl⟩) (.mk ⟨rfl, rfl, rfl⟩)
  finish := by
    rintro ⟨s, n, x⟩ ⟨t, n', x'⟩ ⟨h1, h2, h3⟩
    simp only at h1 h2 h3
    subst h1 h2 h3
    simp only [collectNDecoder, mapDecoder]
    by_cases hn : n = 0
    · rw [if_pos hn, if_pos hn]; exact .mk ⟨rfl, rfl, rfl⟩
    · rw [if_neg hn, if_neg hn]; exact .mk ⟨rfl, rfl, rfl⟩

/-- The same exit, with the items mapped. -/
def LoopExit.mapItems (f : α → β) : LoopExit σ α → LoopExit σ β
  | .done o s items => .done o s (items.map f)
  | .ret r s items => .ret r s (items.map f)

theorem collectLoop_map_some (D : Decoder σ α) (f : α → β) (b : Bytes) (e : Eos) :
    ∀ (o : Nat) (s : σ) (items : List α) (x : LoopExit σ α), collectLoop D b e o s items = some x →
      collectLoop (mapDecoder D f) b e o s (items.map f) = some (x.mapItems f) := by
  apply collectLoop.partial_correctness D b e
    (motive := fun o s items x => collectLoop (mapDecoder D f) b e o s (items.map f) = some (x.mapItems f))
  intro loop ih o s items x heq
  rw [collectLoop]
  simp only [tryDecode_map]
  split at heq
  · next hlt =>
    rw [if_pos hlt]
    generalize tryDecode D s o b e = p at heq
    cases p with
    | ret r s' => cases heq; rfl
    | next o' s' =>
      simp only [mapDecoder] at heq ⊢
      generalize D.finish s' = q at heq
      obtain ⟨r, s''⟩ := q
      cases r with
      | ok y =>
        have := ih _ _ _ _ heq
        simp only [List.map_append, List.map_cons, List.map_nil, mapDecoder] at this
        exact this
      | _ => cases heq; rfl
  · next hlt =>
    rw [if_neg hlt]
    cases heq
    rfl

theorem collectLoop_unmap_some (D : Decoder σ α) (f : α → β) (b : Bytes) (e : Eos) :
    ∀ (o : Nat) (s : σ) (items' : List β) (x : LoopExit σ β), collectLoop (mapDecoder D f) b e o s items' = some x →
      ∀ items : List α, collectLoop D b e o s items ≠ none := by
  apply collectLoop.partial_correctness (mapDecoder D f) b e
    (motive := fun o s items' x => ∀ items : List α, collectLoop D b e o s items ≠ none)
  intro loop ih o s items' x heq items
  rw [collectLoop]
  simp only [tryDecode_map] at heq
  split at heq
  · next hlt =>
    rw [if_pos hlt]
    generalize tryDecode D s o b e = p at heq
    cases p with
    | ret r s' => simp
    | next o' s' =>
      simp only [mapDecoder] at heq ⊢
      generalize D.finish s' = q at heq
      obtain ⟨r, s''⟩ := q
      cases r with
      | ok y => exact ih _ _ _ _ heq _
      | _ => simp
  · next hlt =>
    rw [if_neg hlt]
    simp

theorem sim_collect_map (D : Decoder σ α) (f : α → β) :
    Sim (collectDecoder (mapDecoder D f)) (mapDecoder (collectDecoder D) (List.map f))
      (fun s t => s.inner = t.inner ∧ s.items = t.items.map f ∧ s.eos = t.eos) where
  idle := by rintro ⟨s, n, x⟩ ⟨t, n', x'⟩ ⟨h1, h2, h3⟩; simp only at h1 h2 h3; subst h1 h2 h3; rfl
  req := by rintro ⟨s, n, x⟩ ⟨t, n', x'⟩ ⟨h1, h2, h3⟩; simp only at h1 h2 h3; subst h1 h2 h3; rfl
  decode := by
    rintro ⟨s, x, n⟩ ⟨t, x', n'⟩ ⟨h1, h2, h3⟩ b e
    simp only at h1 h2 h3
    subst h1 h2 h3
    refine Meet.ite _ (.mk ⟨rfl, rfl, rfl⟩) ?_
    simp only
    cases hp : collectLoop D b e 0 s x' with
    | some p =>
      rw [collectLoop_map_some D f b e _ _ _ _ hp]
      cases p with
      | ret r i items => exact .mk ⟨rfl, rfl, rfl⟩
      | done o i items => exact .mk ⟨rfl, rfl, rfl⟩
    | none =>
      cases hq : collectLoop (mapDecoder D f) b e 0 s (x'.map f) with
      | none => exact .mk ⟨rfl, rfl, rfl⟩
      | some q => exact (collectLoop_unmap_some D f b e _ _ _ _ hq _ hp).elim
  finish := by
    rintro ⟨s, x, n⟩ ⟨t, x', n'⟩ ⟨h1, h2, h3⟩
    simp only at h1 h2 h3
    subst h1 h2 h3
    simp only [collectDecoder, mapDecoder]
    cases n <;> exact .mk ⟨rfl, rfl, rfl⟩

theorem pair_map_eq {σ0 α0 β0 σ1 α1 β1 : Type} (D0 : Decoder σ0 α0) (D1 : Decoder σ1 α1) (f : α0 → β0) (g : α1 → β1) :
    tupleDecoder2 (mapDecoder D0 f) (mapDecoder D1 g) =
      mapDecoder (tupleDecoder2 D0 D1) (fun p => (f p.1, g p.2)) := by
  refine Decoder.ext' (fun _ _ _ => rfl) (fun s => ?_) (fun _ => rfl) fun _ => rfl
  simp only [tupleDecoder2, mapDecoder, Res.step_step, Res.step_ok_eq]
  rfl

theorem andThen_map_second_eq {σ0 α0 σ1 : Type} (D0 : Decoder σ0 α0) (D1 : Decoder σ1 α) (f : α0 → σ1) (g : α → β) :
    andThenDecoder D0 (mapDecoder D1 g) f = mapDecoder (andThenDecoder D0 D1 f) g := by
  refine Decoder.ext' (fun _ _ _ => rfl) (fun s => ?_) (fun _ => rfl) fun _ => rfl
  obtain ⟨s0, s1⟩ := s
  cases s1 with
  | none => rfl
  | some s1 =>
    simp only [andThenDecoder, mapDecoder]
    generalize D1.finish s1 = p
    obtain ⟨r, s'⟩ := p
    cases r <;> rfl

theorem andThen_map_first_eq {σ0 α0 β0 σ1 : Type} (D0 : Decoder σ0 α0) (D1 : Decoder σ1 α) (f : α0 → β0) (g : β0 → σ1) :
    andThenDecoder (mapDecoder D0 f) D1 g = andThenDecoder D0 D1 (fun x => g (f x)) := by
  refine Decoder.ext' (fun s b e => ?_) (fun s => rfl) (fun _ => rfl) fun _ => rfl
  obtain ⟨s0, s1⟩ := s
  cases s1 with
  | some s1 => rfl
  | none =>
    simp only [andThenDecoder, tryDecode_map]
    cases tryDecode D0 s0 0 b e with
    | ret r s' => rfl
    | next o s' =>
      simp only [mapDecoder, Res.step_step]
      rfl

/-! ## Decoders: pairs -/

theorem sim_pair_assoc {σ0 α0 σ1 α1 σ2 α2 : Type} (D0 : Decoder σ0 α0) (D1 : Decoder σ1 α1) (D2 : Decoder σ2 α2) :
    Sim (mapDecoder (tupleDecoder2 (tupleDecoder2 D0 D1) D2) (fun p => (p.1.1, p.1.2, p.2)))
      (tupleDecoder2 D0 (tupleDecoder2 D1 D2)) (fun s t => s.1.1 = t.1 ∧ s.1.2 = t.2.1 ∧ s.2 = t.2.2) where
  idle := by
    rintro ⟨⟨s0, s1⟩, s2⟩ ⟨t0, t1, t2⟩ ⟨h1, h2, h3⟩
    simp only at h1 h2 h3
    subst h1 h2 h3
    simp only [mapDecoder, tupleDecoder2, Bool.and_assoc]
  req := by
    rintro ⟨⟨s0, s1⟩, s2⟩ ⟨t0, t1, t2⟩ ⟨h1, h2, h3⟩
    simp only at h1 h2 h3
    subst h1 h2 h3
    simp only [mapDecoder, tupleDecoder2, dec_assoc, dec_zero]
  decode := by
    rintro ⟨⟨s0, s1⟩, s2⟩ ⟨t0, t1, t2⟩ ⟨h1, h2, h3⟩ b e
    simp only at h1 h2 h3
    subst h1 h2 h3
    simp only [mapDecoder]
    rw [pair_decode, pair_decode]
    simp only [tryDecode_pair]
    rcases tryDecode D0 s0 0 b e with ⟨o0, t0⟩ | ⟨r, t0⟩ <;> simp only [Flow.bind, Flow.done]
    rcases tryDecode D1 s1 o0 b e with ⟨o1, t1⟩ | ⟨r, t1⟩ <;> simp only [Flow.bind, Flow.done]
    rcases tryDecode D2 s2 o1 b e with ⟨o2, t2⟩ | ⟨r, t2⟩ <;> simp only [Flow.bind, Flow.done]
    all_goals exact .mk ⟨rfl, rfl, rfl⟩
  finish := by
    rintro ⟨⟨s0, s1⟩, s2⟩ ⟨t0, t1, t2⟩ ⟨h1, h2, h3⟩
    simp only at h1 h2 h3
    subst h1 h2 h3
    simp only [mapDecoder, tupleDecoder2, Res.step_step, Res.step_ok_eq]
    refine Meet.step (R := Eq) ⟨rfl, rfl⟩ (fun _ _ h => ⟨h, rfl, rfl⟩) fun x0 i0 j0 h0 => ?_
    refine Meet.step (R := Eq) ⟨rfl, rfl⟩ (fun _ _ h => ⟨h0, h, rfl⟩) fun x1 i1 j1 h1 => ?_
    refine Meet.step (R := Eq) ⟨rfl, rfl⟩ (fun _ _ h => ⟨h0, h1, h⟩) fun x2 i2 j2 h2 => ?_
    exact .mk ⟨h0, h1, h2⟩

theorem tryDecode_mapErr (D : Decoder σ α) (g : ErrorKind → ErrorKind) (s o b e) :
    tryDecode (mapErrDecoder D g) s o b e =
      match tryDecode D s o b e with
      | .ret r s' => .ret (r.mapErr g) s'
      | .next o s' => .next o s' := by
  unfold tryDecode
  by_cases h1 : D.isIdle s = true
  · rw [if_pos h1, if_pos (show (mapErrDecoder D g).isIdle s = true from h1)]
  · rw [if_neg h1, if_neg (show ¬ (mapErrDecoder D g).isIdle s = true from h1)]
    by_cases h2 : b.length < o
    · rw [if_pos h2, if_pos h2]; rfl
    · rw [if_neg h2, if_neg h2]
      rw [show (mapErrDecoder D g).decode s (b.drop o) e =
        ((D.decode s (b.drop o) e).1.mapErr g, (D.decode s (b.drop o) e).2) from rfl]
      generalize D.decode s (b.drop o) e = p
      obtain ⟨r, s'⟩ := p
      cases r with
      | ok n =>
        simp only [Res.mapErr]
        by_cases h3 : D.isIdle s' = true
        · rw [if_pos h3, if_pos (show (mapErrDecoder D g).isIdle s' = true from h3)]
        · rw [if_neg h3, if_neg (show ¬ (mapErrDecoder D g).isIdle s' = true from h3)]
      | _ => rfl

theorem pair_mapErr_eq {σ0 α0 σ1 α1 : Type} (D0 : Decoder σ0 α0) (D1 : Decoder σ1 α1) (g : ErrorKind → ErrorKind) :
    mapErrDecoder (tupleDecoder2 D0 D1) g = tupleDecoder2 (mapErrDecoder D0 g) (mapErrDecoder D1 g) := by
  refine Decoder.ext' (fun s b e => ?_) (fun s => ?_) (fun _ => rfl) fun _ => rfl
  · simp only [tupleDecoder2, tryDecode_mapErr]
    simp only [mapErrDecoder]
    cases tryDecode D0 s.1 0 b e with
    | ret r s' => rfl
    | next o s' =>
      simp only
      cases tryDecode D1 s.2 o b e with
      | ret r s'' => rfl
      | next o s'' => rfl
  · simp only [tupleDecoder2, mapErrDecoder]
    generalize D0.finish s.1 = p
    obtain ⟨r, s'⟩ := p
    cases r with
    | ok x =>
      simp only [Res.mapErr, Res.step]
      generalize D1.finish s.2 = p
      obtain ⟨r, s''⟩ := p
      cases r <;> rfl
    | _ => rfl

theorem slice_mapErr_eq (D : Decoder σ α) (g : ErrorKind → ErrorKind) :
    mapErrDecoder (sliceDecoder D) g = sliceDecoder (mapErrDecoder D g) := by
  refine Decoder.ext' (fun s b e => ?_) (fun s => ?_) (fun _ => rfl) fun _ => rfl
  · simp only [sliceDecoder, mapErrDecoder]
    cases e.back (b.length - min b.length s.consumable) with
    | ok e' =>
      simp only
      generalize D.decode s.inner _ e' = p
      obtain ⟨r, s'⟩ := p
      cases r with
      | ok n =>
        simp only [Res.mapErr, Res.step]
        by_cases h : s.consumable < n
        · rw [if_pos h]
        · rw [if_neg h]
      | _ => rfl
    | _ => rfl
  · simp only [sliceDecoder, mapErrDecoder]
    generalize D.finish s.inner = p
    obtain ⟨r, s'⟩ := p
    cases r <;> rfl

theorem maybeEos_mapErr_eq (D : Decoder σ α) (g : ErrorKind → ErrorKind) :
    mapErrDecoder (maybeEosDecoder D) g = maybeEosDecoder (mapErrDecoder D g) := by
  refine Decoder.ext' (fun s b e => ?_) (fun s => ?_) (fun _ => rfl) fun _ => rfl
  · simp only [maybeEosDecoder, mapErrDecoder]
    generalize D.decode s.inner b _ = p
    obtain ⟨r, s'⟩ := p
    cases r <;> rfl
  · simp only [maybeEosDecoder, mapErrDecoder]
    generalize D.finish s.inner = p
    obtain ⟨r, s'⟩ := p
    cases r <;> rfl

/-! ## Decoders: the same combinator twice -/

theorem sim_maybeEos_maybeEos (D : Decoder σ α) : Sim (maybeEosDecoder (maybeEosDecoder D)) (maybeEosDecoder D)
    (fun s t => s.inner = t ∧ s.started = t.started) where
  idle := by rintro ⟨⟨s, x⟩, y⟩ ⟨t, x'⟩ ⟨h1, h2⟩; cases h1; rfl
  req := by rintro ⟨⟨s, x⟩, y⟩ ⟨t, x'⟩ ⟨h1, h2⟩; cases h1; rfl
  decode := by
    rintro ⟨⟨s, x⟩, y⟩ ⟨t, x'⟩ ⟨h1, h2⟩ b e
    cases h1
    simp only at h2
    subst h2
    simp only [maybeEosDecoder]
    have he : (if (!y && b.isEmpty && (if (!y && b.isEmpty && e.isReached) = true then Eos.new false else e).isReached) = true
        then Eos.new false else (if (!y && b.isEmpty && e.isReached) = true then Eos.new false else e)) =
        (if (!y && b.isEmpty && e.isReached) = true then Eos.new false else e) := by
      by_cases hc : (!y && b.isEmpty && e.isReached) = true
      · rw [if_pos hc]; split <;> rfl
      · rw [if_neg hc, if_neg hc]
    rw [he, Res.step_step]
    exact Meet.step (R := Eq) ⟨rfl, rfl⟩ (fun _ _ h => by subst h; exact ⟨rfl, rfl⟩) fun _ _ _ h => by
      subst h; exact .mk ⟨rfl, rfl⟩
  finish := by
    rintro ⟨⟨s, x⟩, y⟩ ⟨t, x'⟩ ⟨h1, h2⟩
    cases h1
    simp only at h2
    subst h2
    simp only [maybeEosDecoder, Res.step_step]
    exact Meet.step (R := Eq) ⟨rfl, rfl⟩ (fun _ _ h => by subst h; exact ⟨rfl, rfl⟩) fun _ _ _ h => by
      subst h; exact .mk ⟨rfl, rfl⟩

theorem sim_peekable_peekable (D : Decoder σ α) : Sim (peekableDecoder (peekableDecoder D)) (peekableDecoder D)
    (fun s t => s.inner.inner = t.inner ∧ s.inner.item = none ∧ s.item = t.item) where
  idle := by rintro ⟨⟨s, x⟩, y⟩ ⟨t, x'⟩ ⟨h1, h2, h3⟩; simp only at h1 h2 h3; subst h1 h2 h3; rfl
  req := by rintro ⟨⟨s, x⟩, y⟩ ⟨t, x'⟩ ⟨h1, h2, h3⟩; simp only at h1 h2 h3; subst h1 h2 h3; cases y <;> rfl
  decode := by
    rintro ⟨⟨s, x⟩, y⟩ ⟨t, x'⟩ ⟨h1, h2, h3⟩ b e
    simp only at h1 h2 h3
    subst h1 h2 h3
    refine Meet.ite _ ?_ (.mk ⟨rfl, rfl, rfl⟩)
    simp only [peekableDecoder, Option.isNone_none, if_true, Res.step_step]
    refine Meet.step (R := Eq) ⟨rfl, rfl⟩ (fun _ _ h => ⟨h, rfl, rfl⟩) fun n i j hij => ?_
    subst hij
    by_cases hi : D.isIdle i = true
    · rw [if_pos hi, if_pos hi, Res.step_step]
      refine Meet.step (R := Eq) ⟨rfl, rfl⟩ (fun _ _ h => ⟨h, rfl, rfl⟩) fun x i j hij => ?_
      subst hij
      exact .mk ⟨rfl, rfl, rfl⟩
    · rw [if_neg hi, if_neg hi]
      exact .mk ⟨rfl, rfl, rfl⟩
  finish := by
    rintro ⟨⟨s, x⟩, y⟩ ⟨t, x'⟩ ⟨h1, h2, h3⟩
    simp only at h1 h2 h3
    subst h1 h2 h3
    cases y <;> exact .mk ⟨rfl, rfl, rfl⟩

theorem length_decode_eq (D : Decoder σ α) (s : σ) (x y : Nat) (b : Bytes) (e : Eos) :
    (lengthDecoder D).decode ⟨s, x, y⟩ b e =
      match e.remainingBytes.toU64 with
      | some k =>
        if 2 ^ 64 ≤ k + b.length then (.panic, ⟨s, x, y⟩)
        else if k + b.length < y - min b.length y then (.err .unexpectedEos, ⟨s, x, y⟩)
        else Res.step (D.decode s (b.take (min b.length y)) (Eos.withRemainingBytes (.finite (y - min b.length y))))
          (fun i => ⟨i, x, y⟩) fun size i =>
            if y < size then (.panic, ⟨i, x, y⟩) else (.ok size, ⟨i, x, y - size⟩)
      | none => Res.step (D.decode s (b.take (min b.length y)) (Eos.withRemainingBytes (.finite (y - min b.length y))))
          (fun i => ⟨i, x, y⟩) fun size i =>
            if y < size then (.panic, ⟨i, x, y⟩) else (.ok size, ⟨i, x, y - size⟩) := rfl

theorem sim_length_length (D : Decoder σ α) (n : Nat) (hn : n < 2 ^ 64) :
    Sim (lengthDecoder (lengthDecoder D)) (lengthDecoder D)
      (fun s t => s.inner = t ∧ s.expected = t.expected ∧ s.remaining = t.remaining ∧ t.remaining ≤ n ∧ t.expected ≤ n) where
  idle := by rintro ⟨s, x, y⟩ t ⟨h1, h2, h3, h4⟩; cases h1; rfl
  req := by rintro ⟨s, x, y⟩ t ⟨h1, h2, h3, h4⟩; simp only at h3; subst h3; rfl
  decode := by
    rintro ⟨⟨s, x', y'⟩, x, y⟩ t ⟨h1, h2, h3, h4, h5⟩ b e
    cases h1
    simp only at h2 h3 h4 h5
    subst h2 h3
    have inner : (lengthDecoder D).decode ⟨s, x, y⟩ (b.take (min b.length y)) (Eos.withRemainingBytes (.finite (y - min b.length y))) =
        Res.step (D.decode s (b.take (min b.length y)) (Eos.withRemainingBytes (.finite (y - min b.length y))))
          (fun i => (⟨i, x, y⟩ : LengthState σ)) fun size i =>
            if y < size then (.panic, ⟨i, x, y⟩) else (.ok size, ⟨i, x, y - size⟩) := by
      have hl : (b.take (min b.length y)).length = min b.length y := by rw [List.length_take]; omega
      have ht : (Eos.withRemainingBytes (.finite (y - min b.length y))).remainingBytes.toU64 = some (y - min b.length y) := rfl
      have hm : min (min b.length y) y = min b.length y := by omega
      simp only [lengthDecoder]
      rw [ht]
      simp only
      rw [hl, hm, if_neg (by omega), if_neg (by omega), List.take_take, Nat.min_self]
    have go : Meet (fun (s : LengthState (LengthState σ)) (t : LengthState σ) =>
          s.inner = t ∧ s.expected = t.expected ∧ s.remaining = t.remaining ∧ t.remaining ≤ n ∧ t.expected ≤ n)
        (Res.step ((lengthDecoder D).decode ⟨s, x, y⟩ (b.take (min b.length y))
            (Eos.withRemainingBytes (.finite (y - min b.length y))))
          (fun i => (⟨i, x, y⟩ : LengthState (LengthState σ))) fun size i =>
            if y < size then (.panic, ⟨i, x, y⟩) else (.ok size, ⟨i, x, y - size⟩))
        (Res.step (D.decode s (b.take (min b.length y)) (Eos.withRemainingBytes (.finite (y - min b.length y))))
          (fun i => (⟨i, x, y⟩ : LengthState σ)) fun size i =>
            if y < size then (.panic, ⟨i, x, y⟩) else (.ok size, ⟨i, x, y - size⟩)) := by
      rw [inner, Res.step_step]
      refine Meet.step (R := Eq) ⟨rfl, rfl⟩ (fun _ _ h => by subst h; exact ⟨rfl, rfl, rfl, h4, h5⟩) fun k i j hij => ?_
      subst hij
      by_cases hk : y < k
      · rw [if_pos hk]; exact .mk ⟨rfl, rfl, rfl, h4, h5⟩
      · rw [if_neg hk, Res.step_ok_eq, if_neg hk]; exact .mk ⟨rfl, rfl, rfl, by simp only; omega, h5⟩
    rw [length_decode_eq (lengthDecoder D), length_decode_eq D s x y b e]
    cases e.remainingBytes.toU64 with
    | none => exact go
    | some k => exact Meet.ite _ (.mk ⟨rfl, rfl, rfl, h4, h5⟩) (Meet.ite _ (.mk ⟨rfl, rfl, rfl, h4, h5⟩) go)
  finish := by
    rintro ⟨⟨s, x', y'⟩, x, y⟩ t ⟨h1, h2, h3, h4, h5⟩
    cases h1
    simp only at h2 h3 h4 h5
    subst h2 h3
    simp only [lengthDecoder]
    by_cases hy : y = 0
    · rw [if_pos hy, if_pos hy, Res.step_step]
      refine Meet.step (R := Eq) ⟨rfl, rfl⟩ (fun _ _ h => by subst h; exact ⟨rfl, rfl, rfl, h5, h5⟩) fun k i j hij => ?_
      subst hij
      exact .mk ⟨rfl, rfl, rfl, h5, h5⟩
    · rw [if_neg hy, if_neg hy]
      exact .mk ⟨rfl, rfl, rfl, h4, h5⟩

/-- A decoder that does not claim more bytes than it was offered. -/
structure Moderate (D : Decoder σ α) : Prop where
  le : ∀ s b e n s', D.decode s b e = (.ok n, s') → n ≤ b.length

theorem slice_decode_eq (D : Decoder σ α) (s : σ) (x : Nat) (b : Bytes) (e : Eos) :
    (sliceDecoder D).decode ⟨s, x⟩ b e =
      match e.back (b.length - min b.length x) with
      | .ok e' =>
        Res.step (D.decode s (b.take (min b.length x)) e') (fun i => ⟨i, x⟩) fun size i =>
          if x < size then (.panic, ⟨i, x⟩) else (.ok size, ⟨i, x - size⟩)
      | _ => (.panic, ⟨s, x⟩) := rfl

theorem back_back (e : Eos) (a c : Nat) : (match e.back a with | .ok e' => e'.back c | r => r) = e.back (a + c) := by
  obtain ⟨r⟩ := e
  cases r with
  | finite n =>
    simp only [Eos.back]
    by_cases h : n + a < 2 ^ 64
    · rw [if_pos h]
      simp only [Nat.add_assoc]
    · rw [if_neg h, if_neg (by omega)]
  | _ => rfl

theorem sim_slice_slice (D : Decoder σ α) (hD : Moderate D) :
    Sim (sliceDecoder (sliceDecoder D)) (sliceDecoder D)
      (fun s t => s.inner.inner = t.inner ∧ t.consumable = min s.consumable s.inner.consumable) where
  idle := by rintro ⟨⟨s, x⟩, y⟩ ⟨t, z⟩ ⟨h1, h2⟩; simp only at h1; subst h1; rfl
  req := by rintro ⟨⟨s, x⟩, y⟩ ⟨t, z⟩ ⟨h1, h2⟩; simp only at h1; subst h1; rfl
  decode := by
    rintro ⟨⟨s, x⟩, y⟩ ⟨t, z⟩ ⟨h1, h2⟩ b e
    simp only at h1 h2
    subst h1
    rw [slice_decode_eq (sliceDecoder D), slice_decode_eq D s z b e]
    have hb := back_back e (b.length - min b.length y) (min b.length y - min (min b.length y) x)
    rw [show b.length - min b.length y + (min b.length y - min (min b.length y) x) = b.length - min b.length z by omega]
      at hb
    rw [← hb]
    cases e.back (b.length - min b.length y) with
    | ok e' =>
      simp only
      rw [slice_decode_eq D s x]
      have hl : (b.take (min b.length y)).length = min b.length y := by rw [List.length_take]; omega
      rw [hl]
      cases e'.back (min b.length y - min (min b.length y) x) with
      | ok e'' =>
        simp only
        rw [List.take_take, show min (min (min b.length y) x) (min b.length y) = min b.length z by omega]
        have hm := hD.le s (b.take (min b.length z)) e''
        generalize D.decode s (b.take (min b.length z)) e'' = p at hm
        obtain ⟨r, i⟩ := p
        cases r with
        | ok n =>
          have := hm n i rfl
          rw [List.length_take] at this
          simp only [Res.step]
          rw [if_neg (by omega), if_neg (by omega)]
          simp only
          rw [if_neg (by omega)]
          exact .mk ⟨rfl, by simp only; omega⟩
        | _ => exact .mk ⟨rfl, h2⟩
      | _ => exact .mk ⟨rfl, h2⟩
    | _ => exact .mk ⟨rfl, h2⟩
  finish := by
    rintro ⟨⟨s, x⟩, y⟩ ⟨t, z⟩ ⟨h1, h2⟩
    simp only at h1 h2
    subst h1
    simp only [sliceDecoder, Res.step_step]
    refine Meet.step (R := Eq) ⟨rfl, rfl⟩ (fun _ _ h => ⟨h, h2⟩) fun _ _ _ h => .mk ⟨h, h2⟩

theorem sim_maxBytes_maxBytes (D : Decoder σ α) (hD : Moderate D) :
    Sim (maxBytesDecoder (maxBytesDecoder D)) (maxBytesDecoder D)
      (fun s t => s.inner.inner = t.inner ∧ t.max = min s.max s.inner.max ∧ s.consumed = t.consumed ∧
        s.inner.consumed = t.consumed ∧ t.consumed ≤ t.max) where
  idle := by rintro ⟨⟨s, c, x⟩, d, y⟩ ⟨t, f, z⟩ ⟨h1, h2⟩; simp only at h1; subst h1; rfl
  req := by rintro ⟨⟨s, c, x⟩, d, y⟩ ⟨t, f, z⟩ ⟨h1, h2⟩; simp only at h1; subst h1; rfl
  decode := by
    rintro ⟨⟨s, c, x⟩, d, y⟩ ⟨t, f, z⟩ ⟨h1, h2, h3, h4, h5⟩ b e
    simp only at h1 h2 h3 h4 h5
    subst h1 h3 h4
    have hm := hD.le s b e
    have same : Meet (fun (s : MaxBytesState (MaxBytesState σ)) (t : MaxBytesState σ) =>
          s.inner.inner = t.inner ∧ t.max = min s.max s.inner.max ∧ s.consumed = t.consumed ∧
          s.inner.consumed = t.consumed ∧ t.consumed ≤ t.max)
        (Res.step (Res.step (D.decode s b e) (fun i => (⟨i, c, x⟩ : MaxBytesState σ)) fun n i => (.ok n, ⟨i, c + n, x⟩))
          (fun i => (⟨i, c, y⟩ : MaxBytesState (MaxBytesState σ))) fun n i => (.ok n, ⟨i, c + n, y⟩))
        (Res.step (D.decode s b e) (fun i => (⟨i, c, z⟩ : MaxBytesState σ)) fun n i => (.ok n, ⟨i, c + n, z⟩)) ∨
          z < c + b.length := by
      by_cases hz : z < c + b.length
      · exact .inr hz
      · left
        generalize D.decode s b e = p at hm
        obtain ⟨r, i⟩ := p
        cases r with
        | ok n =>
          have := hm n i rfl
          exact .mk ⟨rfl, h2, rfl, rfl, by simp only; omega⟩
        | _ => exact .mk ⟨rfl, h2, rfl, rfl, h5⟩
    simp only [maxBytesDecoder]
    cases he : e.remainingBytes with
    | infinite => exact .mk ⟨rfl, h2, rfl, rfl, h5⟩
    | unknown =>
      simp only
      rw [if_neg (show ¬ y < c by omega), if_neg (show ¬ x < c by omega), if_neg (show ¬ z < c by omega)]
      by_cases hz : b.length ≤ z - c
      · rw [if_pos (show b.length ≤ y - c by omega), if_pos (show b.length ≤ x - c by omega), if_pos hz]
        exact same.resolve_right (by omega)
      · rw [if_neg hz]
        by_cases hy : b.length ≤ y - c
        · rw [if_pos hy, if_neg (show ¬ b.length ≤ x - c by omega)]
          exact .mk ⟨rfl, h2, rfl, rfl, h5⟩
        · rw [if_neg hy]
          exact .mk ⟨rfl, h2, rfl, rfl, h5⟩
    | finite k =>
      simp only
      rw [if_neg (show ¬ y < c by omega), if_neg (show ¬ x < c by omega), if_neg (show ¬ z < c by omega)]
      by_cases hk : 2 ^ 64 ≤ b.length + k
      · rw [if_pos hk, if_pos hk]
        exact .mk ⟨rfl, h2, rfl, rfl, h5⟩
      · rw [if_neg hk, if_neg hk, if_neg hk]
        by_cases hz : b.length + k ≤ z - c
        · rw [if_pos (show b.length + k ≤ y - c by omega), if_pos (show b.length + k ≤ x - c by omega), if_pos hz]
          exact same.resolve_right (by omega)
        · rw [if_neg hz]
          by_cases hy : b.length + k ≤ y - c
          · rw [if_pos hy, if_neg (show ¬ b.length + k ≤ x - c by omega)]
            exact .mk ⟨rfl, h2, rfl, rfl, h5⟩
          · rw [if_neg hy]
            exact .mk ⟨rfl, h2, rfl, rfl, h5⟩
  finish := by
    rintro ⟨⟨s, c, x⟩, d, y⟩ ⟨t, f, z⟩ ⟨h1, h2, h3, h4, h5⟩
    simp only at h1 h2 h3 h4 h5
    subst h1 h3 h4
    simp only [maxBytesDecoder, Res.step_step]
    exact Meet.step (R := Eq) ⟨rfl, rfl⟩ (fun _ _ h => ⟨h, h2, rfl, rfl, Nat.zero_le _⟩) fun _ _ _ h =>
      .mk ⟨h, h2, rfl, rfl, Nat.zero_le _⟩

end Bytecodec
