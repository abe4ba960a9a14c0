import Verif.Lib.Parse
import Verif.Lib.NZ
import Verif.Lib.Text
/-
C07, C21, C31..C33, C51: recognition of transactions, addresses, derivation paths, error texts.
-/
namespace Casper
open M

/-! ### C07 -/

/-- **C07.** `parser_parse` on the uploaded bytes: nothing, one byte and unknown first bytes are refused, each with its
own error; acceptance implies first byte 0 or 1 and more data. -/
theorem C07_first_byte (pl : Platform) (hcap : pl.cap < 65536) (d : Dev) (hd : d.Ok pl) :
    (d.data = [] → ∃ t, parserParse pl d = .err 2 t) ∧
    (∀ x, d.data = [x] → ∃ t, parserParse pl d = .err 12 t) ∧
    (∀ x y xs, d.data = x :: y :: xs → x ≠ 0 → x ≠ 1 → ∃ t, parserParse pl d = .err 24 t) ∧
    (∀ t, parserParse pl d = .ok () t → ∃ x y xs, d.data = x :: y :: xs ∧ (x = 0 ∨ x = 1)) := by
  refine ⟨parserParse_nil hd, fun x hx => ⟨_, by rw [parserParse_cons hcap hd hx, if_pos rfl]⟩,
    fun x y xs hx h0 h1 => ⟨_, by rw [parserParse_cons hcap hd hx, if_neg (by simp), if_neg h0, if_neg h1]⟩, ?_⟩
  intro t ht
  cases hx : d.data with
  | nil => obtain ⟨t', h⟩ := parserParse_nil hd hx; rw [h] at ht; simp at ht
  | cons x xs =>
    rw [parserParse_cons hcap hd hx] at ht
    cases xs with
    | nil => rw [if_pos rfl] at ht; simp at ht
    | cons y ys =>
      refine ⟨x, y, ys, rfl, ?_⟩
      rw [if_neg (by simp)] at ht
      by_cases h0 : x = 0
      · exact .inl h0
      by_cases h1 : x = 1
      · exact .inr h1
      rw [if_neg h0, if_neg h1] at ht; simp at ht

/-- LAST chunk of a transaction that `tx_parse` refuses: the text of the error, 0x6984, no new review. -/
theorem sign_refused {pl : Platform} {d : Dev} (hd : d.Ok pl) {rx : Bytes} (hc : Chunk 2 2 rx) (ht : d.txInit = true)
    (hf : d.pos + (rx.drop 5).length ≤ pl.cap) {x : Nat} {t : Dev}
    (h : txParse pl { (d.recv rx).store (rx.drop 5) with txInit := false } = .err x t) :
    (step pl d (.apdu rx true)).2 = .reply (errorText x) 0x6984 ∧
    (step pl d (.apdu rx true)).1.review = d.review := by
  rw [step_apdu, dispatch_sign hc]
  unfold handleSign
  rw [bind_run, processChunk_stored hc (.inr rfl) (d := d.recv rx) ht hf]
  simp only [Res.bind_ok, beq_self_eq_true, if_true, bind_run, modify_run]
  unfold orExplain
  simp only [bind_run, attempt_run, h, Res.bind_ok, modify_run, fail_run, Res.bind_err]
  refine ⟨by rw [poke_take], ?_⟩
  have := (txParse_core pl _).2 _ _ h
  unfold SameCore at this
  rw [this]; rfl

/-- **C07, on the device.** In an open session, a LAST chunk completing `0`/`1`-less data is answered with the text of
the specific error and opens no review. -/
theorem C07_refused (pl : Platform) (hcap : pl.cap < 65536) (d : Dev) (hd : d.Ok pl) (rx : Bytes) (hc : Chunk 2 2 rx)
    (ht : d.txInit = true) (hf : d.pos + (rx.drop 5).length ≤ pl.cap) :
    let data := d.data ++ rx.drop 5
    let r := step pl d (.apdu rx true)
    (data = [] → r.2 = .reply b!"Initialized empty context" 0x6984 ∧ r.1.review = d.review) ∧
    (data.length = 1 → r.2 = .reply b!"Unexpected buffer end" 0x6984 ∧ r.1.review = d.review) ∧
    (2 ≤ data.length → data.head? ≠ some 0 → data.head? ≠ some 1 →
      r.2 = .reply b!"Unrecognized error code" 0x6984 ∧ r.1.review = d.review) := by
  intro data r
  have hok : Dev.Ok pl { (d.recv rx).store (rx.drop 5) with txInit := false } := Dev.Ok.store (d := d.recv rx) hd hf
  have hdata : Dev.data { (d.recv rx).store (rx.drop 5) with txInit := false } = data :=
    Dev.store_data (d := d.recv rx) hd _
  obtain ⟨h1, h2, h3, -⟩ := C07_first_byte pl hcap _ hok
  rw [hdata] at h1 h2 h3
  have fin : ∀ x, (∃ t, parserParse pl { (d.recv rx).store (rx.drop 5) with txInit := false } = .err x t) →
      r.2 = .reply (errorText x) 0x6984 ∧ r.1.review = d.review := by
    rintro x ⟨t, h⟩
    refine sign_refused hd hc ht hf (t := t) ?_
    unfold txParse
    rw [bind_run, h, Res.bind_err]
  refine ⟨fun h => fin 2 (h1 h), fun h => ?_, fun hl h0 h1' => ?_⟩
  · obtain ⟨x, hx⟩ := List.length_eq_one_iff.1 h
    exact fin 12 (h2 x hx)
  · match hm : data, hl with
    | x :: y :: xs, _ =>
      refine fin 24 (h3 x y xs rfl ?_ ?_)
      · intro h; apply h0; rw [h]; rfl
      · intro h; apply h1'; rw [h]; rfl

example : (run samplePl (Dev.init samplePl) [.apdu (apdu 2 0 (samplePath 0)) true, .apdu (apdu 2 2 []) true,
    .apdu (apdu 2 0 (samplePath 0)) true, .apdu (apdu 2 2 [0]) true,
    .apdu (apdu 2 0 (samplePath 0)) true, .apdu (apdu 2 1 [7]) true, .apdu (apdu 2 2 [8, 9]) true]).2 =
    [.reply [] 0x9000, .reply b!"Initialized empty context" 0x6984, .reply [] 0x9000,
     .reply b!"Unexpected buffer end" 0x6984, .reply [] 0x9000, .reply [] 0x9000,
     .reply b!"Unrecognized error code" 0x6984] := by decide +kernel

/-! ### C51 -/

/-- **C51, texts.** Every code has a non-empty text of at most 31 characters, and only success is "No error". -/
theorem C51_error_texts (x : Nat) :
    errorText x ≠ [] ∧ (errorText x).length ≤ 31 ∧ (errorText x = b!"No error" ↔ x = 0) := by
  rcases Nat.lt_or_ge x 29 with h | h
  · have : ∀ x < 29, errorText x ≠ [] ∧ (errorText x).length ≤ 31 ∧ (errorText x = b!"No error" ↔ x = 0) := by decide
    exact this x h
  · rw [errorText_unknown x h]
    have : x ≠ 0 := by omega
    simp [this]

/-- Error of an explained call: the text of a code other than 0. -/
theorem orExplain_text {m : M Dev Unit} (hm : NZ m) {s t : Dev} {x : Nat} (h : orExplain m s = .err x t) :
    x = 0x6984 ∧ ∃ y, y ≠ 0 ∧ t.io.take t.tx = errorText y := by
  unfold orExplain at h
  rw [bind_run, attempt_run] at h
  cases he : m s with
  | ok a u => rw [he] at h; simp at h
  | fault f => rw [he] at h; simp at h
  | err y u =>
    rw [he] at h
    simp only [Res.bind_ok, bind_run, modify_run, fail_run, Res.err.injEq] at h
    obtain ⟨rfl, rfl⟩ := h
    exact ⟨rfl, y, hm _ _ _ he, poke_take _ _⟩

theorem chunk_tx {pl : Platform} {rx : Bytes} {d t : Dev} {x : Nat} (hd : d.pos ≤ pl.cap)
    (h : processChunk pl rx d = .err x t) : t.tx = d.tx := by
  have hc := processChunk_case pl rx d hd
  rw [h] at hc
  generalize hr : Res.err x t = r at hc
  cases hc <;> simp only [Res.err.injEq, reduceCtorEq] at hr <;> rw [hr.2]

/-- **C51, on the device.** Data in an answer to SIGN or SIGN-MESSAGE is always the text of an error other than
success: parsing, validating and rendering return no error with code 0, combined codes included. -/
theorem C51_refusals (pl : Platform) (d d' : Dev) (hd : d.Ok pl) (rx : Bytes) (pin : Bool) (data : Bytes) (sw : Nat)
    (hi : rx.getD 1 0 = 2 ∨ rx.getD 1 0 = 3) (h : step pl d (.apdu rx pin) = (d', .reply data sw)) (hdata : data ≠ []) :
    sw = 0x6984 ∧ data ≠ b!"No error" ∧ data.length ≤ 31 ∧ ∃ x, x ≠ 0 ∧ data = errorText x := by
  suffices sw = 0x6984 ∧ ∃ x, x ≠ 0 ∧ data = errorText x by
    obtain ⟨h1, x, h2, rfl⟩ := this
    obtain ⟨-, h3, h4⟩ := C51_error_texts x
    exact ⟨h1, fun h => h2 (h4.1 h), h3, x, h2, rfl⟩
  have hd' : (d.recv rx).pos ≤ pl.cap := hd.2
  have nodata : ∀ (t : Dev) (x : Nat), t.tx = 0 → ((t, Out.reply (t.io.take t.tx) x) = (d', .reply data sw)) → False := by
    intro t x ht h
    simp only [Prod.mk.injEq, Out.reply.injEq, ht, List.take_zero] at h
    exact hdata h.2.1.symm
  have expl : ∀ (m : M Dev Unit) (s : Dev) (r : Review), NZ m →
      outOf d ((orExplain m >>= fun _ => modify fun d => { d with review := some r }) s) = (d', .reply data sw) →
      sw = 0x6984 ∧ ∃ x, x ≠ 0 ∧ data = errorText x := by
    intro m s r hm h
    rw [bind_run] at h
    cases he : orExplain m s with
    | ok a u => rw [he] at h; simp [outOf] at h
    | fault f => rw [he] at h; simp [outOf] at h
    | err x t =>
      rw [he] at h
      simp only [Res.bind_err, outOf, Prod.mk.injEq, Out.reply.injEq] at h
      obtain ⟨h1, y, hy, h2⟩ := orExplain_text hm he
      exact ⟨h.2.2 ▸ h1, y, hy, by rw [← h.2.1, h2]⟩
  rw [step_apdu] at h
  rcases dispatch_cases pl d rx pin with ⟨x, hx, -⟩ | ⟨-, -, hc⟩
  · rw [hx] at h; exact (nodata _ _ rfl h).elim
  rcases hc with ⟨hi', hc⟩ | ⟨-, hi', hc⟩ | ⟨-, hi', hc⟩ | ⟨-, hi', hc⟩ | ⟨-, hi', hc⟩
  · rw [hi'] at hi; exact absurd hi (by decide)
  · rw [hi'] at hi; exact absurd hi (by decide)
  · rw [hc, handleSign, bind_run] at h
    cases hpc : processChunk pl rx (d.recv rx) with
    | fault f => rw [hpc] at h; simp at h
    | err x t => rw [hpc] at h; exact (nodata t x (chunk_tx hd' hpc) h).elim
    | ok b t =>
      rw [hpc] at h
      cases b with
      | false =>
        have := processChunk_false hd' hpc
        have ht : t.tx = 0 := by rcases this with ⟨-, -, -, rfl⟩ | ⟨-, -, -, rfl⟩ <;> rfl
        exact (nodata t _ ht h).elim
      | true =>
        simp only [Res.bind_ok, if_true] at h
        rw [bind_run, modify_run, Res.bind_ok] at h
        refine expl (txParse pl) { t with txInit := false } .tx (NZ_txParse pl) ?_
        rw [← h]
        generalize (orExplain (txParse pl) >>= fun _ => modify fun d => { d with review := some .tx }) { t with txInit := false } = r
        cases r <;> rfl
  · rw [hc, handleSignMessage, bind_run] at h
    cases hpc : processChunk pl rx (d.recv rx) with
    | fault f => rw [hpc] at h; simp at h
    | err x t => rw [hpc] at h; exact (nodata t x (chunk_tx hd' hpc) h).elim
    | ok b t =>
      rw [hpc] at h
      cases b with
      | false =>
        have := processChunk_false hd' hpc
        have ht : t.tx = 0 := by rcases this with ⟨-, -, -, rfl⟩ | ⟨-, -, -, rfl⟩ <;> rfl
        exact (nodata t _ ht h).elim
      | true =>
        simp only [Res.bind_ok, if_true] at h
        refine expl (parseMessage pl) t .message (NZ_parseMessage pl) ?_
        rw [← h]
        generalize (orExplain (parseMessage pl) >>= fun _ => modify fun d => { d with review := some .message }) t = r
        cases r <;> rfl
  · rw [hi'] at hi; exact absurd hi (by decide)

example : (run samplePl (Dev.init samplePl) [.apdu (apdu 2 0 (samplePath 0)) true, .apdu (apdu 2 2 [1, 9]) true]).2 =
    [.reply [] 0x9000, .reply b!"Unexpected buffer end" 0x6984] := by decide +kernel

end Casper
