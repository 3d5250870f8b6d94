import Verif.Lemmas.Kinds
import Verif.Lemmas.CodesIo
/-!
# Lemmas for C77: error kinds of encoders
-/
namespace Bytecodec

open Spec

variable {σ α β : Type} {lim len pre : Bool} {K : ErrorKind → Prop}

/-- The encoder fails with the expected kinds only. -/
structure KindedEnc (lim len pre : Bool) (K : ErrorKind → Prop) (E : Encoder σ α) : Prop where
  encode : ∀ s c e k s', E.encode s c e = (.err k, s') → K k ∨ EncodeKind lim len pre e k
  start : ∀ s x k s', E.start s x = (.err k, s') → K k ∨ StartKind pre k

theorem Spec.EncodeKind.mono {e e' : Eos} {k : ErrorKind} (h : EncodeKind lim len pre e' k)
    (he : e'.isReached = true → e.isReached = true) : EncodeKind lim len pre e k := by
  cases k with
  | unexpectedEos => exact h.imp he id
  | _ => exact h

theorem Spec.EncodeKind.of_len {e e' : Eos} {k : ErrorKind} (h : EncodeKind lim true pre e' k) :
    EncodeKind lim true pre e k := by
  cases k with
  | unexpectedEos => exact .inr (.inl rfl)
  | _ => exact h

/-- What `start_encoding` of a part fails with, `encode` may. -/
theorem Spec.StartKind.encode {e : Eos} {k : ErrorKind} (h : StartKind pre k) : EncodeKind lim len pre e k := by
  cases k with
  | unexpectedEos => exact .inr (.inr h)
  | invalidInput => exact .inr (.inr h)
  | _ => exact h

/-- What `encode` of a part fails with, `start_encoding` of `pre_encode` may. -/
theorem Spec.EncodeKind.start {e : Eos} {k : ErrorKind} (h : EncodeKind lim len pre e k) : StartKind true k := by
  cases k with
  | decoderTerminated => exact h
  | incompleteDecoding => exact h
  | _ => first | exact rfl | trivial

theorem kindedEnc_bytes (asRef : β → Bytes) : KindedEnc lim len pre K (bytesEncoder asRef).toEncoder where
  encode := by
    intro s c e k s' h
    simp only [bytesEncoder] at h
    split at h
    · split at h
      · cases congrArg Prod.fst h
      · split at h
        · cases congrArg Prod.fst h
        · split at h
          · next he => cases congrArg Prod.fst h; exact .inr (.inl he)
          · cases congrArg Prod.fst h
    · cases congrArg Prod.fst h
  start := by
    intro s x k s' h
    simp only [bytesEncoder] at h
    split at h <;> cases congrArg Prod.fst h
    exact .inr trivial

theorem kindedEnc_utf8 : KindedEnc lim len pre K utf8Encoder.toEncoder where
  encode := (kindedEnc_bytes (lim := lim) (len := len) (fun s : String => utf8Bytes s)).encode
  start := (kindedEnc_bytes (lim := lim) (len := len) (fun s : String => utf8Bytes s)).start

theorem kindedEnc_number {f : α → Except ErrorKind Bytes} (hf : ∀ x k, f x = .error k → K k) :
    KindedEnc lim len pre K (fixEncoder f).toEncoder where
  encode := (kindedEnc_bytes id).encode
  start := by
    intro s x k s' h
    simp only [fixEncoder] at h
    split at h
    · exact (kindedEnc_bytes (lim := lim) (len := len) id).start _ _ _ _ h
    · next hx => cases congrArg Prod.fst h; exact .inl (hf _ _ hx)

theorem kindedEnc_null : KindedEnc lim len pre K nullEncoder.toEncoder where
  encode := by intro s c e k s' h; cases congrArg Prod.fst h
  start := by intro s x k s' h; cases congrArg Prod.fst h

theorem kindedEnc_padding : KindedEnc lim len pre K paddingEncoder where
  encode := by
    intro s c e k s' h
    simp only [paddingEncoder] at h
    split at h <;> cases congrArg Prod.fst h
  start := by
    intro s x k s' h
    simp only [paddingEncoder] at h
    split at h <;> cases congrArg Prod.fst h
    exact .inr trivial

theorem kindedEnc_mapErr {E : Encoder σ α} {f : ErrorKind → ErrorKind} (hK : ∀ k, K (f k)) :
    KindedEnc lim len pre K (mapErrEncoder E f) where
  encode := by
    intro s c e k s' h
    obtain ⟨k', rfl⟩ := mapErr_err (congrArg Prod.fst h)
    exact .inl (hK k')
  start := by
    intro s x k s' h
    obtain ⟨k', rfl⟩ := mapErr_err (congrArg Prod.fst h)
    exact .inl (hK k')

theorem kindedEnc_mapFrom {E : Encoder σ α} (h : KindedEnc lim len pre K E) (f : β → α) :
    KindedEnc lim len pre K (mapFromEncoder E f) where
  encode := h.encode
  start := by intro s x k s' hs; exact h.start _ _ _ _ hs

theorem kindedEnc_tryMapFrom {E : Encoder σ α} (h : KindedEnc lim len pre K E) {f : β → Except ErrorKind α}
    (hf : ∀ x k, f x = .error k → K k) : KindedEnc lim len pre K (tryMapFromEncoder E f) where
  encode := h.encode
  start := by
    intro s x k s' hs
    simp only [tryMapFromEncoder] at hs
    split at hs
    · exact h.start _ _ _ _ hs
    · next hx => cases congrArg Prod.fst hs; exact .inl (hf _ _ hx)

theorem kindedEnc_optional {E : Encoder σ α} (h : KindedEnc lim len pre K E) :
    KindedEnc lim len pre K (optionalEncoder E) where
  encode := h.encode
  start := by
    intro s x k s' hs
    cases x with
    | none => cases congrArg Prod.fst hs
    | some x => exact h.start _ _ _ _ hs

theorem startNext_kind {E : Encoder σ α} (h : KindedEnc lim len pre K E) {k : ErrorKind} {r : Res Unit} {s' : σ} {rest : List α} :
    ∀ (xs : List α) (s : σ), startNext E s xs = .failed r s' rest → (r.failAs : Res Bytes) = .err k → K k ∨ StartKind pre k
  | [], s, hs, _ => by
    unfold startNext at hs
    split at hs <;> cases hs
  | x :: xs, s, hs, hk => by
    unfold startNext at hs
    split at hs
    · rcases he : E.start s x with ⟨r1, s1⟩
      rw [he] at hs
      cases r1 with
      | ok u => exact startNext_kind h xs s1 hs hk
      | err k' => cases hs; cases hk; exact h.start _ _ _ _ he
      | _ => cases hs; cases hk
    · cases hs

theorem repeatLoop_kind {E : Encoder σ α} (h : KindedEnc lim len pre K E) (cap : Nat) (e : Eos) (out : Bytes) (s : σ)
    (items : Option (List α)) {k : ErrorKind} {s' : RepeatState σ α}
    (hr : repeatLoop E cap e out s items = (.err k, s')) : K k ∨ EncodeKind lim len pre e k := by
  unfold repeatLoop at hr
  split at hr
  · cases congrArg Prod.fst hr
  · next hs => exact (startNext_kind h _ _ hs (congrArg Prod.fst hr)).imp id fun z => z.encode
  · split at hr
    · cases congrArg Prod.fst hr
    · split at hr
      · split at hr
        · cases congrArg Prod.fst hr
        · exact repeatLoop_kind h cap e _ _ _ hr
      · next he => cases congrArg Prod.fst hr; exact h.encode _ _ _ _ _ he
      all_goals cases congrArg Prod.fst hr
termination_by cap + 1 - out.length
decreasing_by simp only [List.length_append]; omega

theorem kindedEnc_repeated {E : Encoder σ α} (h : KindedEnc lim len pre K E) :
    KindedEnc lim len pre K (repeatEncoder E) where
  encode := by intro s c e k s' hs; exact repeatLoop_kind h _ _ _ _ _ hs
  start := by
    intro s x k s' hs
    simp only [repeatEncoder] at hs
    split at hs <;> cases congrArg Prod.fst hs
    exact .inr trivial

theorem kindedEnc_length {E : Encoder σ α} (hl : len = true) (h : KindedEnc lim len pre K E) :
    KindedEnc lim len pre K (lengthEncoder E).toEncoder where
  encode := by
    subst hl
    intro s c e k s' hs
    simp only [lengthEncoder] at hs
    split at hs
    · cases congrArg Prod.fst hs; exact .inr (.inr (.inl rfl))
    · rcases step_err hs with ⟨t, h1⟩ | ⟨x, t, h1, h2⟩
      · exact (h.encode _ _ _ _ _ h1).imp id fun z => z.of_len
      · split at h2
        · cases congrArg Prod.fst h2
        · split at h2 <;> cases congrArg Prod.fst h2
          exact .inr (.inr (.inl rfl))
  start := by
    intro s x k s' hs
    simp only [lengthEncoder] at hs
    split at hs
    · rcases step_err hs with ⟨t, h1⟩ | ⟨x, t, h1, h2⟩
      · exact h.start _ _ _ _ h1
      · cases congrArg Prod.fst h2
    · cases congrArg Prod.fst hs; exact .inr trivial

theorem kindedEnc_maxBytes {E : Encoder σ α} (hl : lim = true) (h : KindedEnc lim len pre K E) :
    KindedEnc lim len pre K (maxBytesEncoder E) where
  encode := by
    intro s c e k s' hs
    rcases step_err hs with ⟨t, h1⟩ | ⟨x, t, h1, h2⟩
    · exact h.encode _ _ _ _ _ h1
    · dsimp only at h2
      split at h2
      · cases congrArg Prod.fst h2; exact .inr (.inl hl)
      · split at h2 <;> cases congrArg Prod.fst h2
  start := by
    intro s x k s' hs
    rcases step_err hs with ⟨t, h1⟩ | ⟨x, t, h1, h2⟩
    · exact h.start _ _ _ _ h1
    · cases congrArg Prod.fst h2

theorem kindedEnc_slice {E : Encoder σ α} (h : KindedEnc lim len pre K E) :
    KindedEnc lim len pre K (sliceEncoder E) where
  encode := by
    intro s c e k s' hs
    simp only [sliceEncoder] at hs
    split at hs
    · next hb =>
      rcases step_err hs with ⟨t, h1⟩ | ⟨x, t, h1, h2⟩
      · exact (h.encode _ _ _ _ _ h1).imp id fun z => z.mono (back_reached_imp hb)
      · split at h2 <;> cases congrArg Prod.fst h2
    · cases congrArg Prod.fst hs
  start := by
    intro s x k s' hs
    rcases step_err hs with ⟨t, h1⟩ | ⟨x, t, h1, h2⟩
    · exact h.start _ _ _ _ h1
    · cases congrArg Prod.fst h2

theorem kindedEnc_last {E : Encoder σ α} (h : KindedEnc lim len pre K E) :
    KindedEnc lim len pre K (lastEncoder E) where
  encode := by
    intro s c e k s' hs
    have enc : ∀ {t : LastState σ α}, Res.step (E.encode t.inner c e) (fun i => { t with inner := i })
        (fun bs i => (.ok bs, { t with inner := i })) = ((.err k : Res Bytes), s') → K k ∨ EncodeKind lim len pre e k := by
      intro t ht
      rcases step_err ht with ⟨t, h1⟩ | ⟨x, t, h1, h2⟩
      · exact h.encode _ _ _ _ _ h1
      · cases congrArg Prod.fst h2
    simp only [lastEncoder] at hs
    split at hs
    · split at hs
      · rcases step_err hs with ⟨t, h1⟩ | ⟨x, t, h1, h2⟩
        · exact (h.start _ _ _ _ h1).imp id fun z => z.encode
        · exact enc (t := ⟨t, none⟩) h2
      · exact enc hs
    · exact enc hs
  start := by intro s x; exact x.elim

theorem tryEncode_kind {E : Encoder σ α} (h : KindedEnc lim len pre K E) {s s' : σ} {o : Bytes} {c : Nat} {e : Eos}
    {k : ErrorKind} (hd : tryEncode E s o c e = .ret (.err k) s') : K k ∨ EncodeKind lim len pre e k := by
  unfold tryEncode at hd
  split at hd
  · cases hd
  · split at hd
    · cases hd
    · split at hd
      · split at hd <;> cases hd
      · cases hd; exact h.encode _ _ _ _ _ ‹_›
      all_goals cases hd

theorem kindedEnc_pair {σ0 α0 σ1 α1 : Type} {E0 : Encoder σ0 α0} {E1 : Encoder σ1 α1} (h0 : KindedEnc lim len pre K E0)
    (h1 : KindedEnc lim len pre K E1) : KindedEnc lim len pre K (tupleEncoder2 E0 E1) where
  encode := by
    intro s c e k s' hd
    simp only [tupleEncoder2] at hd
    split at hd
    · cases hd; exact tryEncode_kind h0 ‹_›
    · split at hd
      · cases hd; exact tryEncode_kind h1 ‹_›
      · cases congrArg Prod.fst hd
  start := by
    intro s x k s' hs
    rcases step_err hs with ⟨t, a⟩ | ⟨x, t, a, b⟩
    · exact h0.start _ _ _ _ a
    · rcases step_err b with ⟨t, a⟩ | ⟨x, t, a, b⟩
      · exact h1.start _ _ _ _ a
      · cases congrArg Prod.fst b

theorem kindedEnc_monolithic {ser : MonolithicSerializer α} (hs : ∀ x k, (ser x).2 = .err k → K k) :
    KindedEnc lim len pre K (monolithicEncoder ser) where
  encode := by
    intro s c e k s' h
    obtain ⟨it, b⟩ := s
    cases it with
    | none =>
      rcases step_err h with ⟨t, h1⟩ | ⟨x, t, h1, h2⟩
      · exact (kindedEnc_bytes id).encode _ _ _ _ _ h1
      · cases congrArg Prod.fst h2
    | some x =>
      simp only [monolithicEncoder, serialize_chain, Res.step_ok_eq, List.nil_append] at h
      rcases step_err h with ⟨t, h1⟩ | ⟨y, t, h1, h2⟩
      · exact .inl (hs x k (congrArg Prod.fst h1))
      · split at h2
        · cases congrArg Prod.fst h2
        · rcases step_err h2 with ⟨t, h1⟩ | ⟨x, t, h1, h2⟩
          · exact ((kindedEnc_bytes (lim := lim) (len := len) id).start _ _ _ _ h1).imp id fun z => z.encode
          · cases congrArg Prod.fst h2
  start := by
    intro s x k s' h
    simp only [monolithicEncoder] at h
    split at h <;> cases congrArg Prod.fst h
    exact .inr trivial

theorem writeAll_kind {ω : Type} (W : Writer ω) (buf : Bytes) (w w' : ω) {k : ErrorKind} (h : writeAll W w buf = (.err k, w')) :
    k = .other ∨ WriterRaises W k := by
  unfold writeAll at h
  split at h
  · cases congrArg Prod.fst h
  · split at h
    · next he => cases congrArg Prod.fst h; exact .inr ⟨_, _, _, _, he, rfl⟩
    · split at h
      · cases congrArg Prod.fst h; exact .inl rfl
      · split at h
        · cases congrArg Prod.fst h
        · exact writeAll_kind W _ _ _ h
termination_by buf.length
decreasing_by
  cases buf with
  | nil => simp_all
  | cons _ _ => simp only [List.length_drop, List.length_cons]; omega

theorem encodeAll_kind {ω : Type} {E : Encoder σ α} (h : KindedEnc lim len pre K E) (W : Writer ω) :
    ∀ s w y, encodeAll E W s w = some y → ∀ k, y.1 = .err k →
      K k ∨ EncodeKind lim len pre (Eos.new false) k ∨ k = .other ∨ WriterRaises W k := by
  refine encodeAll.partial_correctness E W _ ?_
  intro rec ih s w y hr k hk
  split at hr
  · cases hr; cases hk
  · rcases he : E.encode s 1024 (Eos.new false) with ⟨r, s'⟩
    rw [he] at hr
    cases r with
    | ok bs =>
      dsimp only at hr
      split at hr
      · cases hr; cases hk
      · rcases hw : writeAll W w bs with ⟨r2, w'⟩
        rw [hw] at hr
        cases r2 with
        | ok u =>
          dsimp only at hr
          split at hr
          · cases hr; cases hk; exact .inr (.inr (.inl rfl))
          · exact ih _ _ _ hr k hk
        | err k' => cases hr; cases hk; exact .inr (.inr (writeAll_kind W _ _ _ hw))
        | _ => cases hr; cases hk
    | err k' => cases hr; cases hk; exact (h.encode _ _ _ _ _ he).imp id .inl
    | _ => cases hr; cases hk

theorem vec_not_raises (k : ErrorKind) : ¬ WriterRaises vecWriter k := by
  rintro ⟨w, b, io, w', h, _⟩
  cases congrArg Prod.fst h

theorem encodeIntoBytes_kind {E : Encoder σ α} (h : KindedEnc lim len pre K E) {s s' : σ} {x : α} {k : ErrorKind}
    (he : encodeIntoBytes E s x = (.err k, s')) : K k ∨ StartKind true k := by
  rcases step_err he with ⟨t, h1⟩ | ⟨u, t, h1, h2⟩
  · exact (h.start _ _ _ _ h1).imp id fun z => (z.encode (lim := lim) (len := len) (e := Eos.new true)).start
  · split at h2
    · split at h2
      · cases congrArg Prod.fst h2
      · rcases step_err h2 with ⟨t, h3⟩ | ⟨u, t, h3, h4⟩
        · exact (h.encode _ _ _ _ _ h3).imp id fun z => z.start
        · split at h4 <;> cases congrArg Prod.fst h4
          exact .inr rfl
    · split at h2
      · cases congrArg Prod.fst h2
      · next ha =>
        rcases step_err h2 with ⟨t, h3⟩ | ⟨u, t, h3, h4⟩
        · rcases encodeAll_kind h vecWriter _ _ _ ha k (congrArg Prod.fst h3) with z | z | rfl | z
          · exact .inl z
          · exact .inr z.start
          · exact .inr rfl
          · exact (vec_not_raises k z).elim
        · cases congrArg Prod.fst h4
    · cases congrArg Prod.fst h2; exact .inr rfl

theorem kindedEnc_preEncode {E : Encoder σ α} (hp : pre = true) (h : KindedEnc lim len pre K E) :
    KindedEnc lim len pre K (preEncodeEncoder E).toEncoder where
  encode := by
    intro s c e k s' hs
    rcases step_err hs with ⟨t, h1⟩ | ⟨x, t, h1, h2⟩
    · exact (kindedEnc_bytes id).encode _ _ _ _ _ h1
    · cases congrArg Prod.fst h2
  start := by
    subst hp
    intro s x k s' hs
    rcases step_err hs with ⟨t, h1⟩ | ⟨x, t, h1, h2⟩
    · exact encodeIntoBytes_kind h h1
    · rcases step_err h2 with ⟨t, h1⟩ | ⟨x, t, h1, h2⟩
      · exact (kindedEnc_bytes (lim := lim) (len := len) id).start _ _ _ _ h1
      · cases congrArg Prod.fst h2

theorem raisingEnc_kinded {own : (σ α : Type) → Encoder σ α → Prop}
    (ho : ∀ {σ α : Type} {E : Encoder σ α}, own σ α E → KindedEnc lim len pre K E) {E : Encoder σ α}
    (h : RaisingEncWith own lim len pre K E) : KindedEnc lim len pre K E := by
  induction h with
  | own h => exact ho h
  | bytes f => exact kindedEnc_bytes f
  | utf8 => exact kindedEnc_utf8
  | number f hf => exact kindedEnc_number hf
  | null => exact kindedEnc_null
  | padding => exact kindedEnc_padding
  | monolithic ser hs => exact kindedEnc_monolithic hs
  | mapErr f hK => exact kindedEnc_mapErr hK
  | mapFrom f _ ih => exact kindedEnc_mapFrom ih f
  | tryMapFrom f hf _ ih => exact kindedEnc_tryMapFrom ih hf
  | repeated _ ih => exact kindedEnc_repeated ih
  | optional _ ih => exact kindedEnc_optional ih
  | length hl _ ih => exact kindedEnc_length hl ih
  | maxBytes hl _ ih => exact kindedEnc_maxBytes hl ih
  | preEncode hp _ ih => exact kindedEnc_preEncode hp ih
  | slice _ ih => exact kindedEnc_slice ih
  | last _ ih => exact kindedEnc_last ih
  | pair _ _ ih0 ih1 => exact kindedEnc_pair ih0 ih1

end Bytecodec
