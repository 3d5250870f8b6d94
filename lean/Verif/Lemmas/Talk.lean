import Verif.Spec.Talk
import Verif.Lemmas.Receive
import Verif.Lemmas.Matched
/-!
# Protocols in which the format of a message depends on the messages before it
-/
namespace Bytecodec

open Spec

section

variable {σ α : Type} {D : Decoder σ α} {s₀ : σ} {stream : Bytes} {cap : Nat}

/-- A receiver that is going to get a message can go on until it has it. -/
theorem receives_delivers {size : α → Nat} {x : α} (hR : Receives D s₀ stream (Eos.new true) [x] size)
    (hS : SafeFrom D s₀) (hcap : cap < 2 ^ 64) (hc0 : 0 < cap) :
    ∀ (m : Nat) {t : Receiver σ α} {pos : Nat}, ReceiverInv D s₀ stream cap t pos → t.got = [] →
      stream.length - pos + t.unread.length ≤ m →
      ∃ v pos', ReceiveSteps D t v ∧ ReceiverInv D s₀ stream cap v pos' ∧ v.got = [] ∧ D.isIdle v.dec = true := by
  intro m
  induction m using Nat.strongRecOn with
  | ind m ih =>
  intro t pos h hgot hm'
  cases hi : D.isIdle t.dec with
  | true => exact ⟨t, pos, .refl, h, hgot, hi⟩
  | false =>
  have dec : ∀ {t' : Receiver σ α} {pos' : Nat}, ReceiverInv D s₀ stream cap t' pos' → t'.got = [] →
      D.isIdle t'.dec = false → ∃ n s', D.decode t'.dec t'.rbuf.content (Eos.new t'.rbuf.state.isEos) = (.ok n, s') ∧
        (D.isIdle s' = false → n = t'.rbuf.content.length) := by
    intro t' pos' h' hg' hi'
    have hr := h'.run
    rw [hg'] at hr
    obtain ⟨n, s', k1, _, k3, _⟩ := hR.going (more := []) hr rfl hi' h'.offer
    exact ⟨n, s', k1, k3⟩
  by_cases hcont : t.rbuf.content = []
  · have htail := ReadBuf.content_nil h.r hcont
    have hrc := h.cap
    have hroom : t.rbuf.tail < t.rbuf.inner.length := by omega
    by_cases hun : t.unread = []
    · have hst : ReceiveStep D t { t with rbuf := { t.rbuf with state := .eos }, unread := [] } :=
        .fill scriptReader_honest (fill_eos hroom) (by rw [hun]; rfl) (fun _ => rfl)
      have h' := h.fill scriptReader_honest (fill_eos hroom) (unread' := []) (by rw [hun]; rfl) (fun _ => rfl)
      obtain ⟨n, s', hd, _⟩ := dec h' hgot hi
      obtain ⟨e1, h2⟩ := h'.decode hS hcap hi hd
      have hi2 : D.isIdle s' = true := by
        have hr := h.run
        rw [hgot] at hr
        have hc := hR.complete (more := []) hr rfl hi
        have hb := h.bytes
        rw [hcont, hun] at hb
        have hcont' : ({ t.rbuf with state := .eos } : ReadBuf).content = [] := hcont
        simp only [hcont'] at hd
        rw [hb] at hc
        have hd' : D.decode t.dec [] (Eos.new true) = (.ok n, s') := hd
        rw [List.append_nil, hd'] at hc
        exact hc
      exact ⟨_, _, .step (.step .refl hst) (.decode hi e1), h2, hgot, hi2⟩
    · obtain ⟨b', res, r', log, f1, f2, f3⟩ := fill_some h.r hroom hun
      have hst : ReceiveStep D t { t with rbuf := b', unread := t.unread.drop (t.rbuf.inner.length - t.rbuf.tail) } :=
        .fill scriptReader_honest f1 f2 (fun h => absurd h f3)
      have h' := h.fill scriptReader_honest f1 f2 (fun h => absurd h f3)
      have hne : 0 < t.unread.length := List.length_pos_iff.mpr hun
      obtain ⟨v, p', v1, v2⟩ := ih (m - 1) (by omega) h' hgot (by
        simp only [List.length_drop]
        omega)
      exact ⟨v, p', receive_trans (.step .refl hst) v1, v2⟩
  · obtain ⟨n, s', hd, hd2⟩ := dec h hgot hi
    obtain ⟨e1, h2⟩ := h.decode hS hcap hi hd
    have hst : ReceiveStep D t _ := .decode hi e1
    cases hi2 : D.isIdle s' with
    | true => exact ⟨_, _, .step .refl hst, h2, hgot, hi2⟩
    | false =>
      have hn := hd2 hi2
      have hne : 0 < t.rbuf.content.length := List.length_pos_iff.mpr hcont
      have hb := h2.bound
      obtain ⟨v, p', v1, v2⟩ := ih (m - 1) (by omega) h2 hgot (by
        simp only
        omega)
      exact ⟨v, p', receive_trans (.step .refl hst) v1, v2⟩

end

/-- The listener within one message. -/
def Spec.Listener.recv {P : Protocol} (t : Listener P) : Receiver (P.DecState t.phase) (P.Msg t.phase) :=
  ⟨t.rbuf, t.dec, t.unread, []⟩

theorem listen_trans {P : Protocol} {t u v : Listener P} (h1 : ListenSteps P t u) (h2 : ListenSteps P u v) :
    ListenSteps P t v := by
  induction h2 with
  | refl => exact h1
  | step _ hst ih => exact .step ih hst

/-- Steps of a receiver that takes no message are steps of the listener. -/
theorem listen_of_receive {P : Protocol} {q : P.Phase} {got : List P.Said} {t u : Receiver (P.DecState q) (P.Msg q)}
    (h : ReceiveSteps (P.D q) t u) : u.got = [] →
    ListenSteps P ⟨t.rbuf, t.unread, q, t.dec, got⟩ ⟨u.rbuf, u.unread, q, u.dec, got⟩ := by
  induction h with
  | refl => exact fun _ => .refl
  | step _ hst ih =>
    intro hg
    cases hst with
    | fill hR hf hw hz => exact .step (ih hg) (.fill hR hf hw hz)
    | decode hi hd => exact .step (ih hg) (.decode hi hd)
    | finish hi hf => simp at hg

section

variable {P : Protocol} {dom : ∀ q, P.Msg q → Prop} {enc : ∀ q, P.Msg q → Except ErrorKind Bytes} {tail : Bytes}
  {cap : Nat}

/-- What holds of a listener that is still going to hear `todo`. -/
structure ListenInv (P : Protocol) (enc : ∀ q, P.Msg q → Except ErrorKind Bytes) (tail : Bytes) (cap : Nat)
    (script : List P.Said) (t : Listener P) (todo : List P.Said) (pos : Nat) : Prop where
  follows : Conversation P t.phase todo
  split : script = t.got ++ todo
  inv : ReceiverInv (P.D t.phase) (P.sD t.phase) (talkBytes P enc todo ++ tail) cap t.recv pos

theorem talk_receives {strict again : P.Phase → Bool}
    (hM : ∀ q, Matched (strict q) true (again q) (P.E q) (P.sE q) (P.D q) (P.sD q) (dom q) (enc q))
    {q : P.Phase} {x : P.Msg q} {more : List P.Said} {b : Bytes} (hd : dom q x) (hb : enc q x = .ok b)
    (hl : (talkBytes P enc (⟨q, x⟩ :: more) ++ tail).length < 2 ^ 64) :
    Receives (P.D q) (P.sD q) (talkBytes P enc (⟨q, x⟩ :: more) ++ tail) (Eos.new true) [x] fun _ => b.length := by
  have he : talkBytes P enc (⟨q, x⟩ :: more) ++ tail =
      ([x].flatMap fun x => bytesOf (enc q x)) ++ (talkBytes P enc more ++ tail) := by
    simp [talkBytes, bytesOf, hb]
  rw [he] at hl ⊢
  refine matched_receives (hM q) ?_ (sane_new true hl) (.inr (by simp)) (.inl rfl)
  intro y hy
  simp only [List.mem_singleton] at hy
  subst hy
  exact ⟨hd, b, hb, rfl⟩

/-- Taking the next message. -/
theorem ListenInv.take {strict again : P.Phase → Bool}
    (hM : ∀ q, Matched (strict q) true (again q) (P.E q) (P.sE q) (P.D q) (P.sD q) (dom q) (enc q))
    {script : List P.Said} (hd : ∀ y ∈ script, dom y.1 y.2 ∧ ∃ b, enc y.1 y.2 = .ok b)
    {t : Listener P} {y : P.Said} {more : List P.Said} {pos : Nat}
    (h : ListenInv P enc tail cap script t (y :: more) pos)
    (hl : (talkBytes P enc (y :: more) ++ tail).length < 2 ^ 64) (hi : (P.D t.phase).isIdle t.dec = true) :
    ∃ x s', y = ⟨t.phase, x⟩ ∧ (P.D t.phase).finish t.dec = (.ok x, s') ∧
      ListenInv P enc tail cap script
        ⟨t.rbuf, t.unread, P.next t.phase x, P.sD (P.next t.phase x), t.got ++ [⟨t.phase, x⟩]⟩ more 0 := by
  obtain ⟨p, x⟩ := y
  obtain ⟨hp, hf⟩ := h.follows
  subst hp
  obtain ⟨hdx, b, hb⟩ := hd ⟨t.phase, x⟩ (by rw [h.split]; simp)
  obtain ⟨⟨s', k1⟩, k2⟩ := (talk_receives hM hdx hb hl).ready (more := []) h.inv.run rfl hi
  refine ⟨x, s', rfl, k1, hf, by rw [h.split]; simp, ?_⟩
  have hpos : pos = b.length := by simpa [Listener.recv] using k2
  have hbytes := h.inv.bytes
  have : talkBytes P enc (⟨t.phase, x⟩ :: more) ++ tail = b ++ (talkBytes P enc more ++ tail) := by
    simp [talkBytes, hb]
  rw [this, hpos, List.drop_left] at hbytes
  exact ⟨.new, Nat.zero_le _, hbytes, h.inv.r, h.inv.cap, .refl, h.inv.eos⟩

theorem listen_step {strict again : P.Phase → Bool}
    (hM : ∀ q, Matched (strict q) true (again q) (P.E q) (P.sE q) (P.D q) (P.sD q) (dom q) (enc q))
    (hS : ∀ q, SafeFrom (P.D q) (P.sD q)) (hcap : cap < 2 ^ 64)
    {script : List P.Said} (hd : ∀ y ∈ script, dom y.1 y.2 ∧ ∃ b, enc y.1 y.2 = .ok b)
    {t u : Listener P} (hst : ListenStep P t u) {todo : List P.Said} {pos : Nat}
    (h : ListenInv P enc tail cap script t todo pos) (hl : (talkBytes P enc todo ++ tail).length < 2 ^ 64) :
    (∃ todo' pos', ListenInv P enc tail cap script u todo' pos' ∧ todo' <:+ todo) ∨ script <+: u.got := by
  cases hst with
  | fill hR hf hw hz =>
    exact .inl ⟨todo, pos, ⟨h.follows, h.split, h.inv.fill hR hf hw hz⟩, List.suffix_refl _⟩
  | decode hi he =>
    left
    rcases hq : (P.D t.phase).decode t.dec t.rbuf.content (Eos.new t.rbuf.state.isEos) with ⟨r, v⟩
    rw [decodeFromReadBuf_eq (b := t.rbuf) h.inv.r, hq] at he
    cases r with
    | ok n =>
      simp only [Res.step] at he
      cases he
      exact ⟨todo, _, ⟨h.follows, h.split, (h.inv.decode (hS _) hcap hi hq).2⟩, List.suffix_refl _⟩
    | _ => simp only [Res.step] at he; cases he
  | @finish s1 x hi hf =>
    cases todo with
    | nil =>
      right
      rw [h.split, List.append_nil]
      exact List.prefix_append _ _
    | cons y more =>
      left
      obtain ⟨x', s'', h1, h2, h3⟩ := h.take hM hd hl hi
      rw [h2] at hf
      cases hf
      exact ⟨more, 0, h3, List.suffix_cons _ _⟩

theorem talk_suffix {a b : List P.Said} (h : a <:+ b) :
    (talkBytes P enc a ++ tail).length ≤ (talkBytes P enc b ++ tail).length := by
  obtain ⟨c, rfl⟩ := h
  induction c with
  | nil => exact Nat.le_refl _
  | cons y c ih =>
    simp only [List.cons_append, talkBytes, List.length_append] at ih ⊢
    omega

theorem listen_mono {t u : Listener P} (h : ListenSteps P t u) : t.got <+: u.got := by
  induction h with
  | refl => exact List.prefix_refl _
  | step _ hst ih =>
    cases hst with
    | finish hi hf => exact ih.trans (List.prefix_append _ _)
    | _ => exact ih

theorem listen_inv {strict again : P.Phase → Bool}
    (hM : ∀ q, Matched (strict q) true (again q) (P.E q) (P.sE q) (P.D q) (P.sD q) (dom q) (enc q))
    (hS : ∀ q, SafeFrom (P.D q) (P.sD q)) {store : Bytes} (hcap : store.length < 2 ^ 64)
    {script : List P.Said} (hd : ∀ y ∈ script, dom y.1 y.2 ∧ ∃ b, enc y.1 y.2 = .ok b) {q : P.Phase}
    (hf : Conversation P q script) (hl : (talkBytes P enc script ++ tail).length < 2 ^ 64)
    {t : Listener P} (h : ListenSteps P (.new P q store (talkBytes P enc script ++ tail)) t) :
    (∃ todo pos, ListenInv P enc tail store.length script t todo pos ∧ todo <:+ script) ∨ script <+: t.got := by
  generalize hs : Listener.new P q store (talkBytes P enc script ++ tail) = s at h
  induction h with
  | refl =>
    left
    subst hs
    refine ⟨script, 0, ⟨hf, rfl, .new, Nat.zero_le _, ?_, ?_, rfl, .refl, ?_⟩, List.suffix_refl _⟩
    · simp [Listener.recv, Listener.new, ReadBuf.new, ReadBuf.content]
    · exact ⟨Nat.le_refl _, by simp [Listener.recv, Listener.new, ReadBuf.new], fun _ => rfl⟩
    · intro h; cases h
  | step _ hst ih =>
    rcases ih with ⟨todo, pos, h1, h2⟩ | h1
    · have := talk_suffix (enc := enc) (tail := tail) h2
      rcases listen_step hM hS hcap hd hst h1 (by omega) with ⟨todo', pos', k1, k2⟩ | k
      · exact .inl ⟨todo', pos', k1, k2.trans h2⟩
      · exact .inr k
    · exact .inr (h1.trans (listen_mono (.step .refl hst)))

/-- From every situation the listener can go on until it has heard everything. -/
theorem listen_delivers {strict again : P.Phase → Bool}
    (hM : ∀ q, Matched (strict q) true (again q) (P.E q) (P.sE q) (P.D q) (P.sD q) (dom q) (enc q))
    (hS : ∀ q, SafeFrom (P.D q) (P.sD q)) (hcap : cap < 2 ^ 64) (hc0 : 0 < cap)
    {script : List P.Said} (hd : ∀ y ∈ script, dom y.1 y.2 ∧ ∃ b, enc y.1 y.2 = .ok b) (todo : List P.Said) :
    ∀ {t : Listener P} {pos : Nat}, ListenInv P enc tail cap script t todo pos →
      (talkBytes P enc todo ++ tail).length < 2 ^ 64 → (todo = [] → pos = 0) →
      ∃ u, ListenSteps P t u ∧ u.got = script ∧ u.rbuf.content ++ u.unread = tail := by
  induction todo with
  | nil =>
    intro t pos h _ hp
    have hb := h.inv.bytes
    rw [hp rfl] at hb
    refine ⟨t, .refl, by rw [h.split, List.append_nil], ?_⟩
    simpa [talkBytes, Listener.recv] using hb.symm
  | cons y more ih =>
    intro t pos h hl _
    obtain ⟨p, x⟩ := y
    obtain ⟨hp, hf⟩ := h.follows
    subst hp
    obtain ⟨hdx, b, hb⟩ := hd ⟨t.phase, x⟩ (by rw [h.split]; simp)
    obtain ⟨v, pos', k1, k2, k3, k4⟩ :=
      receives_delivers (talk_receives hM hdx hb hl) (hS _) hcap hc0 _ h.inv rfl (Nat.le_refl _)
    have hsteps := listen_of_receive (got := t.got) k1 k3
    have hinv : ListenInv P enc tail cap script ⟨v.rbuf, v.unread, t.phase, v.dec, t.got⟩ (⟨t.phase, x⟩ :: more) pos' := by
      refine ⟨⟨rfl, hf⟩, h.split, ?_⟩
      have : v = ⟨v.rbuf, v.dec, v.unread, []⟩ := by cases v; simp only at k3; rw [k3]
      rw [this] at k2
      exact k2
    obtain ⟨x', s', h1, h2, h3⟩ := hinv.take hM hd hl k4
    obtain ⟨u, u1, u2⟩ := ih h3 (by
      have := talk_suffix (enc := enc) (tail := tail) (List.suffix_cons (⟨t.phase, x⟩ : P.Said) more)
      omega) (fun _ => rfl)
    exact ⟨u, listen_trans (.step hsteps (.finish k4 h2)) u1, u2⟩

/-- What is still to be done. -/
def listenWeight (script : List P.Said) (t : Listener P) : Nat :=
  2 * t.unread.length + t.rbuf.content.length + 2 * (script.length - t.got.length) +
    if (P.D t.phase).isIdle t.dec = true then 0 else 1

theorem listenWeight_le (script : List P.Said) (t : Listener P) :
    listenWeight script t ≤ 2 * t.unread.length + t.rbuf.content.length + 2 * script.length + 1 := by
  unfold listenWeight
  split <;> omega

theorem listen_weight {strict again : P.Phase → Bool}
    (hM : ∀ q, Matched (strict q) true (again q) (P.E q) (P.sE q) (P.D q) (P.sD q) (dom q) (enc q))
    (hS : ∀ q, SafeFrom (P.D q) (P.sD q)) (hcap : cap < 2 ^ 64)
    {script : List P.Said} (hd : ∀ y ∈ script, dom y.1 y.2 ∧ ∃ b, enc y.1 y.2 = .ok b)
    {t u : Listener P} (hst : ListenStep P t u) (hu : u.got.length ≤ script.length) {todo : List P.Said} {pos : Nat}
    (h : ListenInv P enc tail cap script t todo pos) (hl : (talkBytes P enc todo ++ tail).length < 2 ^ 64) :
    ∃ todo' pos', ListenInv P enc tail cap script u todo' pos' ∧ todo' <:+ todo ∧
      listenWeight script u ≤ listenWeight script t ∧ (Advances t u → listenWeight script u < listenWeight script t) := by
  cases hst with
  | fill hR hf hw hz =>
    have h' := h.inv.fill hR hf hw hz
    refine ⟨todo, pos, ⟨h.follows, h.split, h'⟩, List.suffix_refl _, ?_⟩
    have b1 := congrArg List.length h.inv.bytes
    have b2 := congrArg List.length h'.bytes
    have b3 := congrArg List.length hw
    have l1 := t.rbuf.content_length h.inv.r
    have l2 := ReadBuf.content_length h'.r
    simp only [Listener.recv, List.length_append] at b1 b2 b3 l2
    simp only [listenWeight, Advances]
    constructor
    · omega
    · rintro (k | k | k | k)
      · have : 0 < (delivered _).length := List.length_pos_iff.mpr fun h0 => k (by rw [hw, h0]; rfl)
        omega
      · omega
      · exact absurd rfl k
      · rw [k.1] at k; cases k.2
  | @decode s1 b1 hi he =>
    rcases hq : (P.D t.phase).decode t.dec t.rbuf.content (Eos.new t.rbuf.state.isEos) with ⟨r, v⟩
    rw [decodeFromReadBuf_eq (b := t.rbuf) h.inv.r, hq] at he
    cases r with
    | ok n =>
      simp only [Res.step] at he
      cases he
      have h' := (h.inv.decode (hS _) hcap hi hq).2
      refine ⟨todo, _, ⟨h.follows, h.split, h'⟩, List.suffix_refl _, ?_⟩
      have b1 := congrArg List.length h.inv.bytes
      have b2 := congrArg List.length h'.bytes
      have b3 := h'.bound
      have l1 := t.rbuf.content_length h.inv.r
      have l2 := ReadBuf.content_length h'.r
      simp only [Listener.recv, List.length_append, List.length_drop] at b1 b2 b3 l2
      simp only [listenWeight, Advances, hi]
      constructor
      · split <;> simp <;> omega
      · rintro (k | k | k | k)
        · exact absurd rfl k
        · split <;> simp <;> omega
        · exact absurd rfl k
        · rw [if_pos k.2]; simp; omega
    | _ => simp only [Res.step] at he; cases he
  | @finish s1 x hi hf =>
    cases todo with
    | nil =>
      have := congrArg List.length h.split
      simp at this hu
      omega
    | cons y more =>
      obtain ⟨x', s'', h1, h2, h3⟩ := h.take hM hd hl hi
      have hx : x' = x := by
        rw [h2] at hf
        exact Res.ok.inj (Prod.mk.inj hf).1
      subst hx
      refine ⟨more, 0, h3, List.suffix_cons _ _, ?_⟩
      have hlt : listenWeight script
          ⟨t.rbuf, t.unread, P.next t.phase x', P.sD (P.next t.phase x'), t.got ++ [⟨t.phase, x'⟩]⟩ <
          listenWeight script t := by
        simp only [listenWeight, hi, List.length_append, List.length_singleton] at hu ⊢
        split <;> simp <;> omega
      exact ⟨Nat.le_of_lt hlt, fun _ => hlt⟩

theorem listen_bounded {strict again : P.Phase → Bool}
    (hM : ∀ q, Matched (strict q) true (again q) (P.E q) (P.sE q) (P.D q) (P.sD q) (dom q) (enc q))
    (hS : ∀ q, SafeFrom (P.D q) (P.sD q)) {store : Bytes} (hcap : store.length < 2 ^ 64)
    {script : List P.Said} (hd : ∀ y ∈ script, dom y.1 y.2 ∧ ∃ b, enc y.1 y.2 = .ok b) {q : P.Phase}
    (hf : Conversation P q script) (hl : (talkBytes P enc script ++ tail).length < 2 ^ 64)
    {t : Listener P} {n : Nat} (h : ListenRun P (.new P q store (talkBytes P enc script ++ tail)) n t)
    (ht : t.got.length ≤ script.length) :
    ∃ todo pos, ListenInv P enc tail store.length script t todo pos ∧ todo <:+ script ∧
      n + listenWeight script t ≤ 2 * (talkBytes P enc script ++ tail).length + 2 * script.length + 1 := by
  generalize hs : Listener.new P q store (talkBytes P enc script ++ tail) = s at h
  have mono : ∀ {u v : Listener P}, ListenStep P u v → v.got.length ≤ script.length → u.got.length ≤ script.length :=
    fun hst hv => Nat.le_trans (listen_mono (.step .refl hst)).length_le hv
  induction h with
  | refl =>
    subst hs
    refine ⟨script, 0, ⟨hf, rfl, .new, Nat.zero_le _, ?_, ?_, rfl, .refl, ?_⟩, List.suffix_refl _, ?_⟩
    · simp [Listener.recv, Listener.new, ReadBuf.new, ReadBuf.content]
    · exact ⟨Nat.le_refl _, by simp [Listener.recv, Listener.new, ReadBuf.new], fun _ => rfl⟩
    · intro h; cases h
    · have := listenWeight_le script (Listener.new P q store (talkBytes P enc script ++ tail))
      have h0 : (Listener.new P q store (talkBytes P enc script ++ tail)).rbuf.content.length = 0 := by
        simp [Listener.new, ReadBuf.new, ReadBuf.content]
      have h1 : (Listener.new P q store (talkBytes P enc script ++ tail)).unread = talkBytes P enc script ++ tail := rfl
      rw [h0, h1] at this
      omega
  | ahead _ hst ha ih =>
    obtain ⟨todo, pos, h1, h2, h3⟩ := ih (mono hst ht)
    have := talk_suffix (enc := enc) (tail := tail) h2
    obtain ⟨todo', pos', k1, k2, _, k4⟩ := listen_weight hM hS hcap hd hst ht h1 (by omega)
    have := k4 ha
    exact ⟨todo', pos', k1, k2.trans h2, by omega⟩
  | other _ hst ih =>
    obtain ⟨todo, pos, h1, h2, h3⟩ := ih (mono hst ht)
    have := talk_suffix (enc := enc) (tail := tail) h2
    obtain ⟨todo', pos', k1, k2, k3, _⟩ := listen_weight hM hS hcap hd hst ht h1 (by omega)
    exact ⟨todo', pos', k1, k2.trans h2, by omega⟩

end

end Bytecodec
