import Verif.Lemmas.DuplexRun
/-!
# Lemmas: a client and a server as asynchronous tasks, any order of rounds
-/
namespace Bytecodec
open Spec

variable {τ σ τ' σ' α β : Type} {strict strict' : Bool} {E : Encoder τ α} {sE : τ} {D : Decoder σ α} {sD : σ}
  {dom : α → Prop} {enc : α → Except ErrorKind Bytes} {E' : Encoder τ' β} {sE' : τ'} {D' : Decoder σ' β} {sD' : σ'}
  {dom' : β → Prop} {enc' : β → Except ErrorKind Bytes} {answer : α → β} {n₁ n₂ n₃ n₄ cap : Nat} {reqs : List α}

/-- Where the counters can be. -/
structure CntOk (owed : Cnt → Nat) (n : Nat) (c : Cnt) : Prop where
  le : c.a ≤ c.em
  owed : c.em ≤ owed c
  sent : c.sent ≤ n

theorem SInv.ok₁ (hE : Emits strict E sE dom enc) {t : Session τ σ τ' σ' α β} {sent : List α} {pos₁ pos₂ : Nat}
    {em₁ em₂ : Bytes}
    (h : SInv E sE D sD dom enc E' sE' D' sD' dom' enc' answer n₁ n₂ n₃ n₄ reqs t sent pos₁ em₁ pos₂ em₂) :
    CntOk (owed₁ enc reqs) reqs.length (cnt₁ t sent pos₁ em₁) := by
  have h1 := h.p₁.emLength
  have h2 := (hE.inOrder h.p₁.sends).length_le
  have h3 := congrArg List.length h.split
  simp only [List.length_append] at h1 h2 h3
  refine ⟨by simp only [cnt₁, cnt]; omega, ?_, by simp only [cnt₁, cnt]; omega⟩
  simp only [cnt₁, cnt, owed₁, h.taken.1]
  exact h2

theorem SInv.ok₂ (hE' : Emits strict' E' sE' dom' enc') {t : Session τ σ τ' σ' α β} {sent : List α} {pos₁ pos₂ : Nat}
    {em₁ em₂ : Bytes}
    (h : SInv E sE D sD dom enc E' sE' D' sD' dom' enc' answer n₁ n₂ n₃ n₄ reqs t sent pos₁ em₁ pos₂ em₂) :
    CntOk (owed₂ enc' answer reqs) reqs.length (cnt₂ answer t pos₂ em₂) := by
  have h1 := h.p₂.emLength
  have h2 := (hE'.inOrder h.p₂.sends).length_le
  have h3 := congrArg List.length h.split
  have h4 := h.got₁.length_le
  simp only [List.length_append] at h1 h2 h3
  refine ⟨by simp only [cnt₂, cnt]; omega, ?_, by simp only [cnt₂, cnt, List.length_map]; omega⟩
  simp only [cnt₂, cnt, owed₂, List.length_map, h.taken.2]
  exact h2

/-- A round of the client wakes a sleeping server if there is something to do. -/
theorem serverSleeps_client {rd rd' wr wr' runs runs' : Bool} {c d c' d' : Cnt}
    (hstrict : ∀ x ∈ reqs, bytesOf (enc x) ≠ [])
    (h : runs = false → ServerSleeps enc enc' answer cap reqs rd wr c d)
    (k : CntOk (owed₁ enc reqs) reqs.length c) (k' : CntOk (owed₁ enc reqs) reqs.length c')
    (hc : Cnt.Le c c') (e₁ : c'.b = c.b) (e₂ : c'.pos = c.pos) (e₃ : c'.got = c.got)
    (e₄ : d'.em = d.em) (e₅ : d'.a = d.a) (e₆ : d'.sent = d.sent)
    (hw : Wakes runs runs' rd rd' wr wr' (c'.a ≠ c.a) (d'.b ≠ d.b)) :
    runs' = false → ServerSleeps enc enc' answer cap reqs rd' wr' c' d' := by
  intro hr
  have h0 : runs = false := by
    cases runs with
    | false => rfl
    | true => rw [hw.keep rfl] at hr; cases hr
  obtain ⟨h1, h2, h3⟩ := h h0
  obtain ⟨w1, w2⟩ := hw.off hr
  have ho : owed₂ enc' answer reqs d' = owed₂ enc' answer reqs d := by simp [owed₂, e₆]
  have ha : d.em = owed₂ enc' answer reqs d → c'.a = c.a := by
    intro he
    by_cases hne : c'.a = c.a
    · exact hne
    · have := h2 he
      rw [w1 hne] at this
      cases this
  have hb : d.em ≠ d.a → d'.b = d.b := by
    intro he
    by_cases hne : d'.b = d.b
    · exact hne
    · have := h3 he
      rw [w2 hne] at this
      cases this
  refine ⟨⟨?_, ?_, ?_, ?_⟩, ?_, ?_⟩
  · rw [e₄, e₅]
    by_cases he : d.em = d.a
    · exact .inl he
    · rw [hb he]; exact h1.write
  · rw [e₄, e₅, ho]; exact h1.encoded
  · rw [e₄, ho, e₁, e₂]
    intro he
    rw [ha he]
    exact h1.read he
  · rw [e₄, ho, e₃]
    intro he hem hca
    have q1 := ha he
    have q2 := k.le
    have q3 := k.owed
    have q4 := hc.sent
    have q5 := hc.em
    by_cases hs : c.sent = c'.sent
    · have ho' : owed₁ enc reqs c' = owed₁ enc reqs c := by simp [owed₁, hs]
      rw [← hs]
      exact h1.got he (by omega) (by omega)
    · have : owed₁ enc reqs c < owed₁ enc reqs c' := bytesOfAll_strict hstrict (by omega) k'.sent
      omega
  · rw [e₄, ho]
    intro he
    rw [hw.rd (fun hne => hne (ha he))]
    exact h2 he
  · rw [e₄, e₅]
    intro he
    rw [hw.wr (fun hne => hne (hb he))]
    exact h3 he

/-- A round of the server wakes a sleeping client if there is something to do. -/
theorem clientSleeps_server {rd rd' wr wr' runs runs' : Bool} {c d c' d' : Cnt}
    (hstrict : ∀ x ∈ reqs, bytesOf (enc' (answer x)) ≠ [])
    (h : runs = false → ClientSleeps enc enc' answer cap reqs rd wr c d)
    (k : CntOk (owed₂ enc' answer reqs) reqs.length d) (k' : CntOk (owed₂ enc' answer reqs) reqs.length d')
    (hd : Cnt.Le d d') (e₁ : d'.b = d.b) (e₂ : d'.pos = d.pos) (e₃ : d'.got = d.got)
    (e₄ : c'.em = c.em) (e₅ : c'.a = c.a) (e₆ : c'.sent = c.sent)
    (hw : Wakes runs runs' rd rd' wr wr' (d'.a ≠ d.a) (c'.b ≠ c.b)) :
    runs' = false → ClientSleeps enc enc' answer cap reqs rd' wr' c' d' := by
  intro hr
  have h0 : runs = false := by
    cases runs with
    | false => rfl
    | true => rw [hw.keep rfl] at hr; cases hr
  obtain ⟨h1, h2, h3⟩ := h h0
  obtain ⟨w1, w2⟩ := hw.off hr
  have ho : owed₁ enc reqs c' = owed₁ enc reqs c := by simp [owed₁, e₆]
  have ha : d'.a = d.a := by
    by_cases hne : d'.a = d.a
    · exact hne
    · rw [w1 hne] at h2
      cases h2
  have hb : c.em ≠ c.a → c'.b = c.b := by
    intro he
    by_cases hne : c'.b = c.b
    · exact hne
    · have := h3 he
      rw [w2 hne] at this
      cases this
  refine ⟨⟨?_, ?_, ?_, ?_, ?_, ?_⟩, ?_, ?_⟩
  · rw [e₁, e₂]; exact h1.read
  · rw [ha, e₁]; exact h1.wire
  · rw [e₄, e₅]
    by_cases he : c.em = c.a
    · exact .inl he
    · rw [hb he]; exact h1.write
  · rw [e₄, e₅, ho]; exact h1.encoded
  · rw [e₄, ho, e₆]; exact h1.todo
  · rw [e₃]
    intro hem hda
    have q2 := k.le
    have q3 := k.owed
    have q4 := hd.sent
    have q5 := hd.em
    by_cases hs : d.sent = d'.sent
    · have ho' : owed₂ enc' answer reqs d' = owed₂ enc' answer reqs d := by simp [owed₂, hs]
      rw [← hs]
      exact h1.got (by omega) (by omega)
    · have : owed₂ enc' answer reqs d < owed₂ enc' answer reqs d' := by
        have := bytesOfAll_strict (enc := enc') (xs := reqs.map answer) (m := d.sent) (n := d'.sent)
          (by simpa using hstrict) (by omega) (by simpa using k'.sent)
        simpa [owed₂, List.map_take] using this
      omega
  · rw [hw.rd (fun hne => hne ha)]; exact h2
  · rw [e₄, e₅]
    intro he
    rw [hw.wr (fun hne => hne (hb he))]
    exact h3 he

/-- The invariant of the two tasks after `k` rounds and `w` spurious wake-ups. -/
structure DuplexAt (E : Encoder τ α) (sE : τ) (D : Decoder σ α) (sD : σ) (dom : α → Prop)
    (enc : α → Except ErrorKind Bytes) (E' : Encoder τ' β) (sE' : τ') (D' : Decoder σ' β) (sD' : σ') (dom' : β → Prop)
    (enc' : β → Except ErrorKind Bytes) (answer : α → β) (n₁ n₂ n₃ n₄ cap : Nat) (reqs : List α)
    (t : Duplex τ σ τ' σ' α β) (k w : Nat) (c d : Cnt) : Prop where
  sess : SessionAt E sE D sD dom enc E' sE' D' sD' dom' enc' answer n₁ n₂ n₃ n₄ reqs t.s c d
  fresh : FreshStates t.s
  client : t.clientRuns = false →
    ClientSleeps enc enc' answer cap reqs t.clientReadWaker t.clientWriteWaker c d
  server : t.serverRuns = false →
    ServerSleeps enc enc' answer cap reqs t.serverReadWaker t.serverWriteWaker c d
  count : k + t.clientRuns.toNat + t.serverRuns.toNat ≤ 2 * (c.sum + d.sum) + w + 2

theorem duplex_at (S : Setting strict strict' E sE D sD dom enc E' sE' D' sD' dom' enc' answer n₁ n₂ n₃ n₄ reqs)
    {store₁ store₂ store₃ store₄ : Bytes} (e₁ : store₁.length = n₁) (e₂ : store₂.length = n₂) (e₃ : store₃.length = n₃)
    (e₄ : store₄.length = n₄) {sizes : Nat → Nat} {k w : Nat} {t : Duplex τ σ τ' σ' α β}
    (h : Polls E D E' D' answer cap (.new sE sD sE' sD' store₁ store₂ store₃ store₄ sizes reqs) k w t) :
    ∃ c d, DuplexAt E sE D sD dom enc E' sE' D' sD' dom' enc' answer n₁ n₂ n₃ n₄ cap reqs t k w c d := by
  have hE := matched_emits S.hM
  have hE' := matched_emits S.hM'
  obtain ⟨z, b, hz, hb, hne⟩ := S.hz
  obtain ⟨z', b', hz', hb', hne'⟩ := S.hz'
  have hstrict : ∀ x ∈ reqs, bytesOf (enc x) ≠ [] := by
    intro x hx
    obtain ⟨h1, bx, h2⟩ := S.hm x hx
    rw [bytesOf_ok h2]
    exact matched_nonempty S.hM hz hb hne h1 h2
  have hstrict' : ∀ x ∈ reqs, bytesOf (enc' (answer x)) ≠ [] := by
    intro x hx
    obtain ⟨h1, bx, h2⟩ := S.ha x hx
    rw [bytesOf_ok h2]
    exact matched_nonempty S.hM' hz' hb' hne' h1 h2
  have htn : ∀ x : Bool, x.toNat ≤ 1 := by decide
  induction h with
  | new =>
    obtain ⟨c, d, h0⟩ := at_new S e₁ e₂ e₃ e₄ sizes
    exact ⟨c, d, h0, ⟨fun h => (by cases h), fun h => (by cases h), fun h => (by cases h), fun h => (by cases h)⟩,
      fun h => (by cases h), fun h => (by cases h), by simp [Duplex.new]⟩
  | @client k w t _ hr ih =>
    obtain ⟨c, d, ⟨sent, pos₁, em₁, pos₂, em₂, hI, rfl, rfl⟩, i2, i3, i4, i5⟩ := ih
    obtain ⟨t', sent', em₁', pos₂', x1, x2, x3, x4, x5, x6, x7, x8, x9, x10, x11⟩ :=
      client_round (cap := cap) S.hM S.hM' S.hS' S.h₁ S.h₂ S.hn₂ S.hm hz' hb' hne' hI i2
    rw [x1, Option.getD_some]
    have x9' : (cnt₁ t'.s sent' pos₁ em₁').got = (cnt₁ t.s sent pos₁ em₁).got := by simp [cnt₁, cnt, x9]
    have hkeep : (cnt₁ t'.s sent' pos₁ em₁').b = (cnt₁ t.s sent pos₁ em₁).b ∧
        (cnt₂ answer t'.s pos₂' em₂).a = (cnt₂ answer t.s pos₂ em₂).a := by
      exact ⟨by simp [cnt₁, cnt, x10], x11⟩
    refine ⟨_, _, ⟨sent', pos₁, em₁', pos₂', em₂, x2, rfl, rfl⟩, x3, x7,
      serverSleeps_client hstrict i4 (hI.ok₁ hE) (x2.ok₁ hE) x4 hkeep.1 rfl x9' rfl hkeep.2 (by simp [cnt₂, cnt, x9]) x8, ?_⟩
    have hs1 := x4.sum
    have hs2 := x5.sum
    have ht1 := htn t'.clientRuns
    have ht2 := htn t'.serverRuns
    have hrun : t.clientRuns.toNat = 1 := by rw [hr.1]; rfl
    by_cases hle : (cnt₁ t'.s sent' pos₁ em₁').sum + (cnt₂ answer t'.s pos₂' em₂).sum ≤
        (cnt₁ t.s sent pos₁ em₁).sum + (cnt₂ answer t.s pos₂ em₂).sum
    · have q1 := x4.eq (by omega)
      have q2 := x5.eq (by omega)
      rw [x6 q1 q2, x8.same (by rw [q1]; exact fun h => h rfl) (by rw [q2]; exact fun h => h rfl)]
      simp only [Bool.toNat_false]
      omega
    · omega
  | @server k w t _ hr ih =>
    obtain ⟨c, d, ⟨sent, pos₁, em₁, pos₂, em₂, hI, rfl, rfl⟩, i2, i3, i4, i5⟩ := ih
    obtain ⟨t', pos₁', em₂', x1, x2, x3, x4, x5, x6, x7, x8, x9, x10, x11⟩ :=
      server_round (cap := cap) S.hM S.hM' S.hS S.h₃ S.h₄ S.hn₃ S.ha hz hb hne hI i2
    rw [x1, Option.getD_some]
    have hkeep : (cnt₂ answer t'.s pos₂ em₂').b = (cnt₂ answer t.s pos₂ em₂).b ∧
        (cnt₁ t'.s sent pos₁' em₁).a = (cnt₁ t.s sent pos₁ em₁).a := by
      exact ⟨by simp [cnt₂, cnt, x10], x11⟩
    refine ⟨_, _, ⟨sent, pos₁', em₁, pos₂, em₂', x2, rfl, rfl⟩, x3,
      clientSleeps_server hstrict' i3 (hI.ok₂ hE') (x2.ok₂ hE') x5 hkeep.1 rfl (by simp [cnt₂, cnt, x9]) rfl hkeep.2 rfl x8,
      x7, ?_⟩
    have hs1 := x4.sum
    have hs2 := x5.sum
    have ht1 := htn t'.clientRuns
    have ht2 := htn t'.serverRuns
    have hrun : t.serverRuns.toNat = 1 := by rw [hr.1]; rfl
    by_cases hle : (cnt₁ t'.s sent pos₁' em₁).sum + (cnt₂ answer t'.s pos₂ em₂').sum ≤
        (cnt₁ t.s sent pos₁ em₁).sum + (cnt₂ answer t.s pos₂ em₂).sum
    · have q1 := x4.eq (by omega)
      have q2 := x5.eq (by omega)
      rw [x6 q1 q2, x8.same (by rw [q2]; exact fun h => h rfl) (by rw [q1]; exact fun h => h rfl)]
      simp only [Bool.toNat_false]
      omega
    · omega
  | @wakeClient k w t _ ih =>
    obtain ⟨c, d, i1, i2, i3, i4, i5⟩ := ih
    refine ⟨c, d, i1, i2, fun h => (by cases h), i4, ?_⟩
    simp only [Bool.toNat_true]
    omega
  | @wakeServer k w t _ ih =>
    obtain ⟨c, d, i1, i2, i3, i4, i5⟩ := ih
    refine ⟨c, d, i1, i2, i3, fun h => (by cases h), ?_⟩
    simp only [Bool.toNat_true]
    omega

end Bytecodec
