import Verif.Spec.Mux
import Verif.Lemmas.Matched
import Verif.Lemmas.CodesIo
import Verif.Lemmas.Slice
/-!
# Lemmas: many channels over one connection
-/
namespace Bytecodec
open Spec

section
variable {β : UInt8 → Type}

theorem put_same (f : ∀ i, β i) (i : UInt8) (x : β i) : put f i x i = x := by simp [put]

theorem put_other (f : ∀ i, β i) {i j : UInt8} (x : β i) (h : i ≠ j) : put f i x j = f j := by simp [put, h]

end

/-! ## A decoder that waits for the rest of a message -/

section
variable {σ α : Type} {p : Bool} {D : Decoder σ α} {I F : σ → Prop} {wire : α → Bytes → Prop}

/-- Whatever follows on the stream, the next `rest.length` bytes complete the message `x`. -/
def Waits (D : Decoder σ α) (I F : σ → Prop) (s : σ) (x : α) (rest : Bytes) : Prop :=
  ∀ tail, ∃ s', Coming D I (rest ++ tail) (Eos.new false) s 0 x rest.length s' ∧ I s' ∧ F s'

theorem waits_new (hI : Splits p D I) (hR : Reads true true D F wire) {s : σ} (hs : I s ∧ F s) {x : α} {b : Bytes}
    (hw : wire x b) : Waits D I F s x b := by
  intro tail
  obtain ⟨t, s', h1, h2⟩ := hR.take (tail := tail) (e := Eos.new false) hs.2 hw .newFalse (.inl rfl)
  exact ⟨s', ⟨hs.1, t, by simpa using h1⟩, hI.again hs.1 h1, h2 rfl⟩

theorem Waits.busy (hI : Splits p D I) {s : σ} {x : α} {rest : Bytes} (h : Waits D I F s x rest) (hr : rest ≠ []) :
    D.isIdle s = false := by
  obtain ⟨s', h1, _⟩ := h []
  cases hi : D.isIdle s with
  | false => rfl
  | true =>
    have := (coming_idle hI h1 hi).1
    exact absurd (List.eq_nil_of_length_eq_zero this) hr

theorem Waits.step (hI : Splits p D I) {s : σ} {x : α} {rest : Bytes} (h : Waits D I F s x rest)
    (hs : D.isIdle s = false) {c tail : Bytes} (hc : c <+: rest ++ tail) :
    ∃ m t, D.decode s c (Eos.new false) = (.ok m, t) ∧ m ≤ c.length ∧ m ≤ rest.length ∧
      (D.isIdle t = true → m = rest.length ∧ ∃ s', D.finish t = (.ok x, s') ∧ I s' ∧ F s') ∧
      (D.isIdle t = false → m = c.length ∧ Waits D I F t x (rest.drop m)) ∧
      (rest = [] → D.isIdle t = true) := by
  obtain ⟨r, hr⟩ := hc
  obtain ⟨s', h1, h2⟩ := h tail
  obtain ⟨m, t, k1, k2, k3, k4, k5, _⟩ := coming_step hI h1 hs (c := c) (ec := Eos.new false)
    ⟨r, by simp [hr], .inl rfl⟩
  refine ⟨m, t, k1, k2, k3, fun hi => ⟨(k5 hi).1, s', (k5 hi).2, h2⟩, fun hi => ⟨k4 hi, ?_⟩, fun he => ?_⟩
  · -- the chunk lies within the message
    have hm := k4 hi
    have hcr : c = rest.take m := by
      have := congrArg (List.take m) hr
      rw [List.take_append_of_le_length (by omega), List.take_append_of_le_length k3,
        List.take_of_length_le (by omega)] at this
      exact this
    intro tail'
    obtain ⟨s'', g1, g2⟩ := h tail'
    obtain ⟨m', t', l1, l2, l3, l4, l5, l6⟩ := coming_step hI g1 hs (c := c) (ec := Eos.new false)
      ⟨rest.drop m ++ tail', by
        rw [List.drop_zero, hcr, ← List.append_assoc, List.take_append_drop], .inl rfl⟩
    rw [k1] at l1
    cases l1
    obtain ⟨i1, u, i2⟩ := l6 hi
    refine ⟨s'', ⟨i1, u, ?_⟩, g2⟩
    rw [List.drop_zero, List.length_drop]
    rw [Nat.zero_add, List.drop_append_of_le_length k3] at i2
    exact i2
  · subst he
    obtain ⟨s'', ⟨_, u, g1⟩, _⟩ := h c
    simp only [List.nil_append, List.drop_zero, List.length_nil] at g1
    rw [item_busy hs, k1] at g1
    obtain ⟨g1, g2, _⟩ := g1
    cases g1
    exact g2

end

/-! ## Frames -/

variable {η θ : Type} {τ σ α : UInt8 → Type}

/-- The payload bytes of channel `i`. -/
def chan (i : UInt8) (F : List (UInt8 × Bytes)) : Bytes := (F.filter fun f => f.1 == i).flatMap Prod.snd

theorem chan_nil (i : UInt8) : chan i [] = [] := rfl

theorem chan_cons_same (i : UInt8) (b : Bytes) (F : List (UInt8 × Bytes)) : chan i ((i, b) :: F) = b ++ chan i F := by
  simp [chan]

theorem chan_cons_other {i j : UInt8} (h : j ≠ i) (b : Bytes) (F : List (UInt8 × Bytes)) :
    chan i ((j, b) :: F) = chan i F := by
  simp [chan, h]

theorem chan_append (i : UInt8) (F G : List (UInt8 × Bytes)) : chan i (F ++ G) = chan i F ++ chan i G := by
  simp [chan]

/-- The header of a frame. -/
def headOf (f : UInt8 × Bytes) : UInt8 × UInt16 := (f.1, UInt16.ofNat f.2.length)

/-- All bytes of some frames. -/
def frames (encH : UInt8 × UInt16 → Except ErrorKind Bytes) (F : List (UInt8 × Bytes)) : Bytes :=
  F.flatMap fun f => bytesOf (encH (headOf f)) ++ f.2

theorem frames_cons (encH : UInt8 × UInt16 → Except ErrorKind Bytes) (f : UInt8 × Bytes) (F : List (UInt8 × Bytes)) :
    frames encH (f :: F) = bytesOf (encH (headOf f)) ++ (f.2 ++ frames encH F) := by
  simp [frames]

theorem frames_append (encH : UInt8 × UInt16 → Except ErrorKind Bytes) (F G : List (UInt8 × Bytes)) :
    frames encH (F ++ G) = frames encH F ++ frames encH G := by
  simp [frames]

/-! ## The sender -/

section
variable {H : Encoder η (UInt8 × UInt16)} {E : ∀ i, Encoder (τ i) (α i)} {dom : ∀ i, α i → Prop}
  {enc : ∀ i, α i → Except ErrorKind Bytes} {domH : UInt8 × UInt16 → Prop}
  {encH : UInt8 × UInt16 → Except ErrorKind Bytes} {PH : η → Bytes → Prop} {P : ∀ i, τ i → Bytes → Prop}
  {ok : ∀ i, α i → Prop}

/-- The invariant of the sender: it has written the frames `F`. -/
structure SendInv (H : Encoder η (UInt8 × UInt16)) (encH : UInt8 × UInt16 → Except ErrorKind Bytes)
    (enc : ∀ i, α i → Except ErrorKind Bytes) (PH : η → Bytes → Prop) (P : ∀ i, τ i → Bytes → Prop)
    (ok : ∀ i, α i → Prop) (s : MuxSender η τ α) (F : List (UInt8 × Bytes)) : Prop where
  header : PH s.header [] ∧ H.isIdle s.header = true
  wire : s.wire = frames encH F
  short : ∀ f ∈ F, f.2.length < 65536
  msgs : ∀ i, ∀ x ∈ s.sent i, ok i x
  chan : ∀ i, ∃ owed, bytesOfAll (enc i) (s.sent i) = chan i F ++ owed ∧ P i (s.channels i).inner owed

theorem bytesOfAll_snoc {β : Type} (enc : β → Except ErrorKind Bytes) (l : List β) (x : β) :
    bytesOfAll enc (l ++ [x]) = bytesOfAll enc l ++ bytesOf (enc x) := by
  simp [bytesOfAll]

theorem bytesOfAll_cons {β : Type} (enc : β → Except ErrorKind Bytes) (l : List β) (x : β) :
    bytesOfAll enc (x :: l) = bytesOf (enc x) ++ bytesOfAll enc l := by
  simp [bytesOfAll]

theorem SendInv.step {strictH : Bool} {strict : UInt8 → Bool} (hH : Codes strictH H PH domH encH)
    (hE : ∀ i, Codes (strict i) (E i) (P i) (dom i) (enc i)) (hall : ∀ h, domH h ∧ ∃ b, encH h = .ok b)
    (hok : ∀ i x, ok i x → dom i x ∧ ∃ b, enc i x = .ok b) {s : MuxSender η τ α} {F : List (UInt8 × Bytes)}
    (h : SendInv H encH enc PH P ok s F) (op : MuxOp α) (hop : ∀ i x, op = .start i x → ok i x) :
    ∃ s' G, s.step H E op = some s' ∧ SendInv H encH enc PH P ok s' (F ++ G) := by
  cases op with
  | start i x =>
    simp only [MuxSender.step]
    cases hi : (sliceEncoder (E i)).isIdle (s.channels i) with
    | false => exact ⟨s, [], rfl, by simpa using h⟩
    | true =>
      obtain ⟨owed, h1, h2⟩ := h.chan i
      have h3 : owed = [] := (hE i).idle h2 hi
      subst h3
      obtain ⟨hd, b, hb⟩ := hok i x (hop i x rfl)
      obtain ⟨t, k1, k2⟩ := (hE i).startOk h2 hi hd hb
      rw [slice_start, k1]
      refine ⟨_, [], rfl, ?_⟩
      rw [List.append_nil]
      refine ⟨h.header, h.wire, h.short, ?_, ?_⟩
      · intro j y hy
        by_cases hj : i = j
        · subst hj
          simp only [put_same, List.mem_append, List.mem_singleton] at hy
          rcases hy with hy | rfl
          · exact h.msgs _ _ hy
          · exact hop _ _ rfl
        · simp only [put_other _ _ hj] at hy
          exact h.msgs _ _ hy
      · intro j
        by_cases hj : i = j
        · subst hj
          refine ⟨b, ?_, ?_⟩
          · simp only [put_same, bytesOfAll_snoc, h1, hb, bytesOf, List.append_nil]
          · simp only [put_same]; exact k2
        · simp only [put_other _ _ hj]
          exact h.chan j
  | turn i allowance cap =>
    obtain ⟨owed, h1, h2⟩ := h.chan i
    obtain ⟨c, k1, k2, _⟩ := (hE i).step (cap := min cap.toNat allowance.toNat) (e := Eos.new false) h2
      (by simp [Eos.new, Eos.isReached])
    have hlen : (owed.take (min cap.toNat allowance.toNat)).length ≤ min cap.toNat allowance.toNat := by
      rw [List.length_take]; omega
    have hcap : cap.toNat < 65536 := cap.toNat_lt
    have henc : (sliceEncoder (E i)).encode ((s.channels i).setConsumableBytes allowance.toNat) cap.toNat (Eos.new false)
        = (.ok (owed.take (min cap.toNat allowance.toNat)), ⟨c, allowance.toNat -
          (owed.take (min cap.toNat allowance.toNat)).length⟩) := by
      simp only [sliceEncoder, SliceState.setConsumableBytes, Eos.new, Eos.back]
      simp only [Eos.new] at k1
      simp only [Bool.false_eq_true, if_false] at k1 ⊢
      rw [k1]
      simp only [Res.step]
      rw [if_neg (by omega)]
    generalize hout : owed.take (min cap.toNat allowance.toNat) = out at *
    obtain ⟨hd, bh, hbh⟩ := hall (i, UInt16.ofNat out.length)
    obtain ⟨t, l1, l2⟩ := hH.startOk h.header.1 h.header.2 hd hbh
    obtain ⟨res, t', w', q1, ⟨rfl, q2, q3, q4⟩ | ⟨k, pre, _, _, _, hf⟩⟩ :=
      encodeAll_spec hH sink_vec bh.length t bh s.wire (Nat.le_refl _) l2
    · simp only [id] at q4
      simp only [MuxSender.step, henc, l1, q1]
      refine ⟨_, [(i, out)], rfl, ⟨q3, q2⟩, ?_, ?_, h.msgs, ?_⟩
      · simp only [q4, h.wire, frames_append, frames_cons, headOf, hbh, bytesOf]
        simp [frames]
      · intro f hf
        rw [List.mem_append, List.mem_singleton] at hf
        rcases hf with hf | rfl
        · exact h.short f hf
        · simp only; omega
      · intro j
        by_cases hj : i = j
        · subst hj
          refine ⟨owed.drop (min cap.toNat allowance.toNat), ?_, ?_⟩
          · simp only [chan_append, chan_cons_same, chan_nil, h1, ← hout, List.append_nil, List.append_assoc,
              List.take_append_drop]
          · simp only [put_same]; exact k2
        · simp only [put_other _ _ hj, chan_append, chan_cons_other hj, chan_nil, List.append_nil]
          exact h.chan j
    · exact absurd hf vec_never_fails

/-- What a call does to a channel on which it starts no message. -/
theorem step_owes {strict : UInt8 → Bool} (hE : ∀ i, Codes (strict i) (E i) (P i) (dom i) (enc i))
    {s s' : MuxSender η τ α} {op : MuxOp α} (h : s.step H E op = some s') {i : UInt8}
    (hop : ∀ x, op ≠ .start i x) {owed : Bytes} (hP : P i (s.channels i).inner owed) :
    ∃ owed', P i (s'.channels i).inner owed' ∧ owed'.length ≤ owed.length ∧ s'.sent i = s.sent i ∧
      ((E i).isIdle (s.channels i).inner = true → (E i).isIdle (s'.channels i).inner = true) ∧
      ∀ allowance cap, op = .turn i allowance cap → allowance ≠ 0 → cap ≠ 0 →
        owed'.length ≤ owed.length - 1 ∧ (owed = [] → (E i).isIdle (s'.channels i).inner = true) := by
  cases op with
  | start j x =>
    have hj : j ≠ i := by
      intro hj
      subst hj
      exact hop x rfl
    refine ⟨owed, ?_⟩
    simp only [MuxSender.step] at h
    split at h
    · split at h
      · cases h
        simp only [put_other _ _ hj]
        exact ⟨hP, Nat.le_refl _, trivial, id, by intro _ _ h; cases h⟩
      · cases h
    · cases h
      exact ⟨hP, Nat.le_refl _, rfl, id, by intro _ _ h; cases h⟩
  | turn j allowance cap =>
    simp only [MuxSender.step] at h
    split at h
    · next out c henc =>
      split at h
      · split at h
        · cases h
          by_cases hj : j = i
          · subst hj
            obtain ⟨e', hb, henc', _, _⟩ := slice_encode_ok henc
            simp only [Eos.new, Eos.back, Bool.false_eq_true, if_false, SliceState.setConsumableBytes] at hb henc'
            cases hb
            obtain ⟨t, k1, k2, k3⟩ := (hE j).step (cap := min cap.toNat allowance.toNat) (e := ⟨.unknown⟩) hP
              (by simp [Eos.isReached])
            rw [henc'] at k1
            cases k1
            refine ⟨owed.drop (min cap.toNat allowance.toNat), ?_, ?_, rfl, ?_, ?_⟩
            · simp only [put_same]; exact k2
            · rw [List.length_drop]; omega
            · intro hi
              have := (hE j).idle hP hi
              subst this
              simp only [put_same]
              exact k3.2 (Nat.zero_le _)
            · intro a c' he ha hc
              cases he
              have ha' : 0 < allowance.toNat := by
                rcases Nat.eq_zero_or_pos allowance.toNat with h0 | h0
                · exact absurd (UInt64.toNat_inj.1 h0) ha
                · exact h0
              have hc' : 0 < cap.toNat := by
                rcases Nat.eq_zero_or_pos cap.toNat with h0 | h0
                · exact absurd (UInt16.toNat_inj.1 h0) hc
                · exact h0
              refine ⟨by rw [List.length_drop]; omega, fun h0 => ?_⟩
              subst h0
              simp only [put_same]
              exact k3.2 (Nat.zero_le _)
          · refine ⟨owed, ?_⟩
            simp only [put_other _ _ hj]
            exact ⟨hP, Nat.le_refl _, trivial, id, by intro _ _ h; cases h; exact absurd rfl hj⟩
        · cases h
      · cases h
    · cases h

theorem run_drains {strict : UInt8 → Bool} (hE : ∀ i, Codes (strict i) (E i) (P i) (dom i) (enc i)) {i : UInt8}
    (ops : List (MuxOp α)) (hop : ∀ x, MuxOp.start i x ∉ ops) : ∀ {s s' : MuxSender η τ α} {owed : Bytes},
    s.run H E ops = some s' → P i (s.channels i).inner owed →
    ((E i).isIdle (s.channels i).inner = true ∨
      owed.length + 1 ≤ ops.countP (fun op => op.serves i)) →
    (E i).isIdle (s'.channels i).inner = true ∧ s'.sent i = s.sent i := by
  induction ops with
  | nil =>
    intro s s' owed h hP hc
    cases h
    rcases hc with hc | hc
    · exact ⟨hc, rfl⟩
    · simp at hc
  | cons op ops ih =>
    intro s s' owed h hP hc
    simp only [MuxSender.run, List.foldlM_cons] at h
    cases hs : s.step H E op with
    | none => rw [hs] at h; cases h
    | some s₁ =>
      rw [hs] at h
      obtain ⟨owed', k1, k2, k3, k4, k5⟩ := step_owes hE hs (i := i) (fun x hx => hop x (by simp [hx])) hP
      have := ih (fun x hx => hop x (List.mem_cons_of_mem _ hx)) (s := s₁) (s' := s') h k1 ?_
      · rw [k3] at this; exact this
      · rcases hc with hc | hc
        · exact .inl (k4 hc)
        · rw [List.countP_cons] at hc
          cases hv : op.serves i with
          | false =>
            rw [hv] at hc
            simp only [Bool.false_eq_true, if_false] at hc
            exact .inr (by omega)
          | true =>
            rw [hv] at hc
            simp only [if_true] at hc
            cases op with
            | start => cases hv
            | turn j a c =>
              simp only [MuxOp.serves, Bool.and_eq_true, beq_iff_eq, bne_iff_ne, ne_eq] at hv
              obtain ⟨⟨rfl, ha⟩, hc'⟩ := hv
              obtain ⟨e1, e2⟩ := k5 a c rfl ha hc'
              cases owed with
              | nil => exact .inl (e2 rfl)
              | cons b bs =>
                simp only [List.length_cons] at e1 hc
                exact .inr (by omega)

theorem SendInv.run {strictH : Bool} {strict : UInt8 → Bool} (hH : Codes strictH H PH domH encH)
    (hE : ∀ i, Codes (strict i) (E i) (P i) (dom i) (enc i)) (hall : ∀ h, domH h ∧ ∃ b, encH h = .ok b)
    (hok : ∀ i x, ok i x → dom i x ∧ ∃ b, enc i x = .ok b) (ops : List (MuxOp α))
    (hop : ∀ i x, MuxOp.start i x ∈ ops → ok i x) : ∀ {s : MuxSender η τ α} {F : List (UInt8 × Bytes)},
    SendInv H encH enc PH P ok s F → ∃ s' G, s.run H E ops = some s' ∧ SendInv H encH enc PH P ok s' G := by
  induction ops with
  | nil => intro s F h; exact ⟨s, F, rfl, h⟩
  | cons op ops ih =>
    intro s F h
    obtain ⟨s', G, h1, h2⟩ := h.step hH hE hall hok op (fun i x he => hop i x (by simp [he]))
    obtain ⟨s'', G', h3, h4⟩ := ih (fun i x he => hop i x (List.mem_cons_of_mem _ he)) h2
    refine ⟨s'', G', ?_, h4⟩
    simp only [MuxSender.run, List.foldlM_cons, h1] at h3 ⊢
    exact h3

end

/-! ## The receiver: one channel -/

section
variable {S A : Type} {p : Bool} {D : Decoder S A} {I F : S → Prop} {dom : A → Prop} {enc : A → Except ErrorKind Bytes}

/-- The decoder of a channel has delivered `got` and waits for `x`, then `more`; `q` are the bytes to come in the
frames, `after` what would come after them. -/
structure ChanAt (D : Decoder S A) (I F : S → Prop) (enc : A → Except ErrorKind Bytes) (all : List A) (after : Bytes)
    (s : S) (got : List A) (q : Bytes) (x : A) (rest : Bytes) (more : List A) : Prop where
  all : all = got ++ x :: more
  waits : Waits D I F s x rest
  busy : D.isIdle s = false
  bytes : q ++ after = rest ++ bytesOfAll enc more

theorem ChanAt.step (hI : Splits p D I) (hR : Reads true true D F (fun x b => dom x ∧ enc x = .ok b)) {all : List A}
    (hall : ∀ x ∈ all, dom x ∧ ∃ b, enc x = .ok b ∧ b ≠ []) {after : Bytes} (hafter : after ≠ [])
    {s : S} {got : List A} {cur q : Bytes} {x : A} {rest : Bytes} {more : List A}
    (h : ChanAt D I F enc all after s got (cur ++ q) x rest more) {buf R R' : Bytes} (hb : buf ++ R' = cur ++ R) :
    ∃ m t, (sliceDecoder D).decode ⟨s, cur.length⟩ buf (Eos.new false) = (.ok m, ⟨t, cur.length - m⟩) ∧
      m ≤ buf.length ∧ m ≤ cur.length ∧
      (D.isIdle t = true → ∃ y more' s', more = y :: more' ∧ D.finish t = (.ok x, s') ∧
        ChanAt D I F enc all after s' (got ++ [x]) (cur.drop m ++ q) y (bytesOf (enc y)) more') ∧
      (D.isIdle t = false → m = min buf.length cur.length ∧
        ChanAt D I F enc all after t got (cur.drop m ++ q) x (rest.drop m) more ∧ (rest = [] → False)) := by
  have hpre : buf.take (min buf.length cur.length) <+: cur := take_prefix ⟨R', hb⟩
  have hc : buf.take (min buf.length cur.length) <+: rest ++ bytesOfAll enc more := by
    rw [← h.bytes, List.append_assoc]
    exact hpre.trans (List.prefix_append _ _)
  obtain ⟨m, t, k1, k2, k3, k4, k5, k6⟩ := h.waits.step hI h.busy hc
  have hlen : (buf.take (min buf.length cur.length)).length = min buf.length cur.length := by
    rw [List.length_take]; omega
  rw [hlen] at k2 k5
  refine ⟨m, t, ?_, by omega, by omega, ?_, ?_⟩
  · simp only [sliceDecoder, Eos.new, Eos.back]
    simp only [Eos.new] at k1
    simp only [Bool.false_eq_true, if_false] at k1 ⊢
    rw [k1]
    simp only [Res.step]
    rw [if_neg (by omega)]
  · intro hi
    obtain ⟨e1, s', e2, e3, e4⟩ := k4 hi
    have hbytes := h.bytes
    cases more with
    | nil =>
      have := congrArg List.length hbytes
      simp only [bytesOfAll, List.flatMap_nil, List.append_nil, List.length_append] at this
      have := List.length_pos_iff.2 hafter
      omega
    | cons y more' =>
      refine ⟨y, more', s', rfl, e2, ?_⟩
      obtain ⟨hd, b, hb1, hb2⟩ := hall y (by rw [h.all]; simp)
      have hw : Waits D I F s' y b := waits_new hI hR ⟨e3, e4⟩ ⟨hd, hb1⟩
      refine ⟨by rw [h.all]; simp, by simpa [hb1, bytesOf] using hw, hw.busy hI hb2, ?_⟩
      have := congrArg (List.drop m) hbytes
      rw [List.append_assoc, List.drop_append_of_le_length (by omega), ← List.append_assoc, e1, List.drop_left,
        ← e1, bytesOfAll_cons] at this
      exact this
  · intro hi
    obtain ⟨e1, e2⟩ := k5 hi
    refine ⟨e1, ⟨h.all, e2, hi, ?_⟩, ?_⟩
    · have := congrArg (List.drop m) h.bytes
      rw [List.append_assoc, List.drop_append_of_le_length (by omega), List.drop_append_of_le_length (by omega),
        ← List.append_assoc] at this
      exact this
    · intro he
      rw [k6 he] at hi
      cases hi

/-- Everything has arrived, and the decoder waits for a message of which something is missing. -/
theorem ChanAt.done {sent : List A} {z : A} {s : S}
    {got : List A} {x : A} {rest : Bytes} {more : List A}
    (h : ChanAt D I F enc (sent ++ [z]) (bytesOf (enc z)) s got [] x rest more) (hr : rest ≠ []) : got = sent := by
  cases hm : more.reverse with
  | nil =>
    have : more = [] := by simpa using hm
    subst this
    exact (List.append_inj' h.all rfl).1.symm
  | cons w ws =>
    have hm' : more = ws.reverse ++ [w] := by
      have := congrArg List.reverse hm
      simpa using this
    subst hm'
    have h1 := h.all
    rw [show got ++ x :: (ws.reverse ++ [w]) = (got ++ x :: ws.reverse) ++ [w] by simp] at h1
    have h2 := List.append_inj' h1 rfl
    have hz : z = w := by simpa using h2.2
    subst hz
    have h3 := congrArg List.length h.bytes
    simp only [List.nil_append, bytesOfAll_snoc, List.length_append] at h3
    have := List.length_pos_iff.2 hr
    omega

theorem ChanAt.prefix {sent : List A} {z : A} {after : Bytes} {s : S} {got : List A} {q : Bytes} {x : A}
    {rest : Bytes} {more : List A} (h : ChanAt D I F enc (sent ++ [z]) after s got q x rest more) : got <+: sent := by
  have h1 := h.all
  have h2 := congrArg List.length h1
  simp only [List.length_append, List.length_cons, List.length_nil] at h2
  have h3 : got <+: sent ++ [z] := ⟨_, h1.symm⟩
  exact List.prefix_of_prefix_length_le h3 (List.prefix_append _ _) (by omega)

end

/-! ## The receiver: all channels -/

/-- What is known about the codecs and the messages. -/
structure MuxSetting (HD : Decoder θ (UInt8 × UInt16)) (D : ∀ i, Decoder (σ i) (α i)) (dom : ∀ i, α i → Prop)
    (enc : ∀ i, α i → Except ErrorKind Bytes) (encH : UInt8 × UInt16 → Except ErrorKind Bytes)
    (all : ∀ i, List (α i)) (after : UInt8 → Bytes)
    (pH : Bool) (IH FH : θ → Prop) (p : UInt8 → Bool) (I F : ∀ i, σ i → Prop) (domH : UInt8 × UInt16 → Prop) : Prop where
  headI : Splits pH HD IH
  headR : Reads true true HD FH (fun x b => domH x ∧ encH x = .ok b)
  heads : ∀ x, domH x ∧ ∃ b, encH x = .ok b ∧ b ≠ []
  chanI : ∀ i, Splits (p i) (D i) (I i)
  chanR : ∀ i, Reads true true (D i) (F i) (fun x b => dom i x ∧ enc i x = .ok b)
  msgs : ∀ i, ∀ x ∈ all i, dom i x ∧ ∃ b, enc i x = .ok b ∧ b ≠ []
  after : ∀ i, after i ≠ []

section
variable {HD : Decoder θ (UInt8 × UInt16)} {D : ∀ i, Decoder (σ i) (α i)} {dom : ∀ i, α i → Prop}
    {enc : ∀ i, α i → Except ErrorKind Bytes} {encH : UInt8 × UInt16 → Except ErrorKind Bytes}
    {all : ∀ i, List (α i)} {after : UInt8 → Bytes}
    {pH : Bool} {IH FH : θ → Prop} {p : UInt8 → Bool} {I F : ∀ i, σ i → Prop} {domH : UInt8 × UInt16 → Prop}

/-- The decoder of the channel waits for a message of which something is missing. -/
def Resting (D : ∀ i, Decoder (σ i) (α i)) (I F : ∀ i, σ i → Prop) (enc : ∀ i, α i → Except ErrorKind Bytes)
    (all : ∀ i, List (α i)) (after : UInt8 → Bytes) (r : MuxReceiver θ σ α) (i : UInt8) (q : Bytes) : Prop :=
  ∃ x rest more, ChanAt (D i) (I i) (F i) (enc i) (all i) (after i) (r.channels i).inner (r.got i) q x rest more ∧
    rest ≠ []

/-- A header is expected, for the first of the frames `L`. -/
structure Between (HD : Decoder θ (UInt8 × UInt16)) (D : ∀ i, Decoder (σ i) (α i)) (IH FH : θ → Prop)
    (I F : ∀ i, σ i → Prop) (enc : ∀ i, α i → Except ErrorKind Bytes)
    (encH : UInt8 × UInt16 → Except ErrorKind Bytes) (all : ∀ i, List (α i)) (after : UInt8 → Bytes)
    (r : MuxReceiver θ σ α) (R : Bytes) (L : List (UInt8 × Bytes)) : Prop where
  current : r.current = none
  short : ∀ f ∈ L, f.2.length < 65536
  chans : ∀ i, Resting D I F enc all after r i (chan i L)
  busy : HD.isIdle r.header = false
  head : (L = [] ∧ R = [] ∧ ∃ x rest, Waits HD IH FH r.header x rest ∧ rest ≠ []) ∨
    ∃ f L' rest, L = f :: L' ∧ Waits HD IH FH r.header (headOf f) rest ∧ R = rest ++ (f.2 ++ frames encH L')

/-- In a frame of channel `i`, of which `cur` is to come, before the frames `L`. -/
structure Inside (HD : Decoder θ (UInt8 × UInt16)) (D : ∀ i, Decoder (σ i) (α i)) (IH FH : θ → Prop)
    (I F : ∀ i, σ i → Prop) (enc : ∀ i, α i → Except ErrorKind Bytes)
    (encH : UInt8 × UInt16 → Except ErrorKind Bytes) (all : ∀ i, List (α i)) (after : UInt8 → Bytes)
    (r : MuxReceiver θ σ α) (R : Bytes) (i : UInt8) (cur : Bytes) (L : List (UInt8 × Bytes))
    (x : α i) (rest : Bytes) (more : List (α i)) : Prop where
  current : r.current = some i
  short : ∀ f ∈ L, f.2.length < 65536
  head : IH r.header ∧ FH r.header
  allowance : (r.channels i).consumable = cur.length
  chans : ∀ j, i ≠ j → Resting D I F enc all after r j (chan j L)
  chan : ChanAt (D i) (I i) (F i) (enc i) (all i) (after i) (r.channels i).inner (r.got i) (cur ++ chan i L) x rest more
  bytes : R = cur ++ frames encH L

/-- The invariant of the receiver between two calls; `R` are the bytes to come. -/
def RecvInv (HD : Decoder θ (UInt8 × UInt16)) (D : ∀ i, Decoder (σ i) (α i)) (IH FH : θ → Prop)
    (I F : ∀ i, σ i → Prop) (enc : ∀ i, α i → Except ErrorKind Bytes)
    (encH : UInt8 × UInt16 → Except ErrorKind Bytes) (all : ∀ i, List (α i)) (after : UInt8 → Bytes)
    (r : MuxReceiver θ σ α) (R : Bytes) : Prop :=
  (∃ L, Between HD D IH FH I F enc encH all after r R L ∧ (R = [] → L = [])) ∨
  ∃ i cur L x rest more, Inside HD D IH FH I F enc encH all after r R i cur L x rest more ∧ rest ≠ [] ∧ cur ≠ []

theorem receive_inside (S : MuxSetting HD D dom enc encH all after pH IH FH p I F domH) {L : List (UInt8 × Bytes)}
    (hP : ∀ {r : MuxReceiver θ σ α} {buf R : Bytes}, Between HD D IH FH I F enc encH all after r (buf ++ R) L →
      ∃ r', r.receive HD D buf = some r' ∧ RecvInv HD D IH FH I F enc encH all after r' R) (n : Nat) :
    ∀ {r : MuxReceiver θ σ α} {buf R : Bytes} {i : UInt8} {cur : Bytes} {x : α i} {rest : Bytes} {more : List (α i)},
    more.length + buf.length ≤ n →
    Inside HD D IH FH I F enc encH all after r (buf ++ R) i cur L x rest more →
    ∃ r', r.receive HD D buf = some r' ∧ RecvInv HD D IH FH I F enc encH all after r' R := by
  induction n using Nat.strongRecOn with
  | _ n ih =>
    intro r buf R i cur x rest more hn h
    obtain ⟨m, t, k1, k2, k3, k4, k5⟩ := h.chan.step (S.chanI i) (S.chanR i) (S.msgs i) (S.after i) h.bytes
    have hst : r.channels i = ⟨(r.channels i).inner, cur.length⟩ := by rw [← h.allowance]
    rw [← hst] at k1
    have hbytes : buf.drop m ++ R = cur.drop m ++ frames encH L := by
      have := congrArg (List.drop m) h.bytes
      rwa [List.drop_append_of_le_length k2, List.drop_append_of_le_length k3] at this
    rw [MuxReceiver.receive, h.current]
    simp only [k1]
    cases hi : D i |>.isIdle t with
    | true =>
      obtain ⟨y, more', s', rfl, e2, e3⟩ := k4 hi
      have hid : (sliceDecoder (D i)).isIdle ⟨t, cur.length - m⟩ = true := hi
      rw [if_pos hid, slice_finish]
      simp only [e2]
      refine ih (more'.length + (buf.drop m).length) ?_ (i := i) (cur := cur.drop m) (x := y)
        (rest := bytesOf (enc i y)) (more := more') (Nat.le_refl _) ?_
      · simp only [List.length_cons, List.length_drop] at hn ⊢
        omega
      · refine ⟨rfl, h.short, h.head, ?_, ?_, ?_, hbytes⟩
        · simp only [put_same, List.length_drop]
        · intro j hj
          have := h.chans j hj
          simp only [Resting, put_other _ _ hj] at this ⊢
          exact this
        · simp only [put_same]
          exact e3
    | false =>
      obtain ⟨e1, e2, e3⟩ := k5 hi
      have hid : ¬ (sliceDecoder (D i)).isIdle ⟨t, cur.length - m⟩ = true := by
        show ¬ (D i).isIdle t = true
        rw [hi]; simp
      rw [if_neg hid]
      by_cases hm : m = 0
      · subst hm
        rw [if_pos rfl]
        simp only [List.drop_zero] at e2 ⊢
        have hchans : ∀ j, i ≠ j → Resting D I F enc all after
            { r with channels := put r.channels i ⟨t, cur.length - 0⟩ } j (chan j L) := by
          intro j hj
          have := h.chans j hj
          simp only [Resting, put_other _ _ hj] at this ⊢
          exact this
        by_cases hcur : cur = []
        · subst hcur
          have hsusp : (⟨t, ([] : Bytes).length - 0⟩ : SliceState (σ i)).isSuspended = true := rfl
          rw [if_pos hsusp]
          refine hP ?_
          have hR := h.bytes
          simp only [List.nil_append] at hR
          have hW : ∀ x, ∃ b, encH x = .ok b ∧ b ≠ [] ∧ Waits HD IH FH r.header x b := by
            intro x
            obtain ⟨hd, b, hb, hne⟩ := S.heads x
            exact ⟨b, hb, hne, waits_new S.headI S.headR h.head ⟨hd, hb⟩⟩
          refine ⟨rfl, h.short, ?_, ?_, ?_⟩
          · intro j
            by_cases hj : i = j
            · subst hj
              refine ⟨x, rest, more, ?_, e3⟩
              simp only [put_same]
              simpa using e2
            · exact hchans j hj
          · obtain ⟨b, hb, hne, hw⟩ := hW (0, 0)
            exact hw.busy S.headI hne
          · cases L with
            | nil =>
              obtain ⟨b, hb, hne, hw⟩ := hW (0, 0)
              exact .inl ⟨rfl, by simpa [frames] using hR, _, b, hw, hne⟩
            | cons f L' =>
              obtain ⟨b, hb, hne, hw⟩ := hW (headOf f)
              refine .inr ⟨f, L', b, rfl, hw, ?_⟩
              rw [hR, frames_cons, hb]
              rfl
        · have hpos : 0 < cur.length := List.length_pos_iff.2 hcur
          have hsusp : ¬ (⟨t, cur.length - 0⟩ : SliceState (σ i)).isSuspended = true := by
            simp only [SliceState.isSuspended, Nat.sub_zero, beq_iff_eq]
            omega
          rw [if_neg hsusp]
          have hbuf : buf = [] := List.eq_nil_of_length_eq_zero (by omega)
          subst hbuf
          refine ⟨_, rfl, .inr ⟨i, cur, L, x, rest, more, ⟨rfl, h.short, h.head, ?_, hchans, ?_, ?_⟩, e3, hcur⟩⟩
          · simp only [put_same, Nat.sub_zero]
          · simp only [put_same]
            simpa using e2
          · simpa using h.bytes
      · rw [if_neg hm]
        refine ih (more.length + (buf.drop m).length) ?_ (i := i) (cur := cur.drop m) (x := x)
          (rest := rest.drop m) (more := more) (Nat.le_refl _) ?_
        · simp only [List.length_drop]
          omega
        · refine ⟨rfl, h.short, h.head, ?_, ?_, ?_, hbytes⟩
          · simp only [put_same, List.length_drop]
          · intro j hj
            have := h.chans j hj
            simp only [Resting, put_other _ _ hj] at this ⊢
            exact this
          · simp only [put_same]
            exact e2

theorem receive_between (S : MuxSetting HD D dom enc encH all after pH IH FH p I F domH) (L : List (UInt8 × Bytes)) :
    ∀ {r : MuxReceiver θ σ α} {buf R : Bytes}, Between HD D IH FH I F enc encH all after r (buf ++ R) L →
      ∃ r', r.receive HD D buf = some r' ∧ RecvInv HD D IH FH I F enc encH all after r' R := by
  induction L with
  | nil =>
    intro r buf R h
    rcases h.head with ⟨_, hR, x, rest, hw, hne⟩ | ⟨_, _, _, hL, _⟩
    · obtain ⟨rfl, rfl⟩ := List.append_eq_nil_iff.1 hR
      obtain ⟨m, t, k1, k2, k3, k4, k5, _⟩ := hw.step S.headI h.busy (c := []) (tail := []) (List.nil_prefix)
      have hi : HD.isIdle t = false := by
        cases hi : HD.isIdle t with
        | false => rfl
        | true =>
          have := (k4 hi).1
          have := List.length_pos_iff.2 hne
          simp only [List.length_nil] at k2
          omega
      obtain ⟨e1, e2⟩ := k5 hi
      simp only [List.length_nil] at e1
      subst e1
      rw [MuxReceiver.receive, h.current]
      simp only [k1, hi, Bool.false_eq_true, if_false, if_true]
      exact ⟨_, rfl, .inl ⟨[], ⟨rfl, h.short, h.chans, hi, .inl ⟨rfl, rfl, x, rest, by simpa using e2, hne⟩⟩, fun _ => rfl⟩⟩
    · cases hL
  | cons f L ih =>
    have key : ∀ (n : Nat) {r : MuxReceiver θ σ α} {buf R : Bytes}, buf.length ≤ n →
        Between HD D IH FH I F enc encH all after r (buf ++ R) (f :: L) →
        ∃ r', r.receive HD D buf = some r' ∧ RecvInv HD D IH FH I F enc encH all after r' R := by
      intro n
      induction n using Nat.strongRecOn with
      | _ n ihn =>
        intro r buf R hn h
        rcases h.head with ⟨hL, _⟩ | ⟨f', L', rest, hL, hw, hR⟩
        · cases hL
        · cases hL
          obtain ⟨m, t, k1, k2, k3, k4, k5, k6⟩ := hw.step S.headI h.busy (c := buf) (tail := f.2 ++ frames encH L)
            ⟨R, hR⟩
          have hdrop : buf.drop m ++ R = rest.drop m ++ (f.2 ++ frames encH L) := by
            have := congrArg (List.drop m) hR
            rwa [List.drop_append_of_le_length k2, List.drop_append_of_le_length k3] at this
          rw [MuxReceiver.receive, h.current]
          simp only [k1]
          cases hi : HD.isIdle t with
          | false =>
            obtain ⟨e1, e2⟩ := k5 hi
            simp only [Bool.false_eq_true, if_false]
            have hB : Between HD D IH FH I F enc encH all after { r with header := t } (buf.drop m ++ R) (f :: L) :=
              ⟨h.current, h.short, h.chans, hi, .inr ⟨f, L, rest.drop m, rfl, e2, hdrop⟩⟩
            by_cases hm : m = 0
            · rw [if_pos hm]
              have hbuf : buf = [] := List.eq_nil_of_length_eq_zero (by omega)
              subst hbuf
              simp only [List.drop_nil, List.nil_append] at hB hR
              refine ⟨_, rfl, .inl ⟨f :: L, by rw [← h.current]; exact hB, fun h0 => ?_⟩⟩
              rw [h0] at hR
              have := k6 (List.append_eq_nil_iff.1 hR.symm).1
              rw [hi] at this
              cases this
            · rw [if_neg hm]
              rw [← h.current]
              exact ihn (buf.drop m).length (by rw [List.length_drop]; omega) (Nat.le_refl _) hB
          | true =>
            obtain ⟨e1, s', e2, e3⟩ := k4 hi
            simp only [if_true, e2, headOf]
            rw [e1, List.drop_length, List.nil_append, ← e1] at hdrop
            obtain ⟨x, rest', more, hc, hr⟩ := h.chans f.1
            have hfl : f.2.length < 65536 := h.short f (by simp)
            have hch : chan f.1 (f :: L) = f.2 ++ chan f.1 L := chan_cons_same f.1 f.2 L
            refine receive_inside S (fun {r buf R} => ih) (more.length + (buf.drop m).length) (i := f.1) (cur := f.2)
              (x := x) (rest := rest') (more := more) (Nat.le_refl _) ?_
            refine ⟨rfl, fun g hg => h.short g (List.mem_cons_of_mem _ hg), e3, ?_, ?_, ?_, hdrop⟩
            · simp only [put_same, SliceState.setConsumableBytes, UInt16.toNat_ofNat']
              omega
            · intro j hj
              have := h.chans j
              rw [show f :: L = (f.1, f.2) :: L from rfl, chan_cons_other hj] at this
              simp only [Resting, put_other _ _ hj] at this ⊢
              exact this
            · rw [hch] at hc
              simp only [put_same, SliceState.setConsumableBytes]
              exact hc
    intro r buf R h
    exact key buf.length (Nat.le_refl _) h

theorem receive_step (S : MuxSetting HD D dom enc encH all after pH IH FH p I F domH) {r : MuxReceiver θ σ α}
    {buf R : Bytes} (h : RecvInv HD D IH FH I F enc encH all after r (buf ++ R)) :
    ∃ r', r.receive HD D buf = some r' ∧ RecvInv HD D IH FH I F enc encH all after r' R := by
  rcases h with ⟨L, h, _⟩ | ⟨i, cur, L, x, rest, more, h, _⟩
  · exact receive_between S L h
  · exact receive_inside S (receive_between S L) _ (Nat.le_refl _) h

theorem receive_all (S : MuxSetting HD D dom enc encH all after pH IH FH p I F domH) (pieces : List Bytes) :
    ∀ {r : MuxReceiver θ σ α} {R : Bytes}, RecvInv HD D IH FH I F enc encH all after r (pieces.flatten ++ R) →
      ∃ r', r.receiveAll HD D pieces = some r' ∧ RecvInv HD D IH FH I F enc encH all after r' R := by
  induction pieces with
  | nil => intro r R h; exact ⟨r, rfl, by simpa using h⟩
  | cons b bs ih =>
    intro r R h
    rw [List.flatten_cons, List.append_assoc] at h
    obtain ⟨r', h1, h2⟩ := receive_step S h
    obtain ⟨r'', h3, h4⟩ := ih h2
    refine ⟨r'', ?_, h4⟩
    simp only [MuxReceiver.receiveAll, List.foldlM_cons, h1] at h3 ⊢
    exact h3

end

end Bytecodec
