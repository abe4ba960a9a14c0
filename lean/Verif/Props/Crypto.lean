import Verif.Spec.Keys
import Verif.Lib.Device
import Verif.Lib.V1
/-
C60: keys are wiped, and what is answered is the signature or nothing.
-/
namespace Casper
open M

theorem allZero_zeros (n : Nat) : AllZero (zeros n) := fun _ hx => List.eq_of_mem_replicate hx

theorem attempt_err {σ α : Type} {m : M σ α} {s t : σ} {x : Nat} (h : m s = .err x t) : attempt m s = .ok (.error x) t := by rw [attempt_run, h]
theorem attempt_ok {σ α : Type} {m : M σ α} {s t : σ} {a : α} (h : m s = .ok a t) : attempt m s = .ok (.ok a) t := by rw [attempt_run, h]

/-- After a failure. -/
theorem leave_error (x : Nat) (s : KeyMem) :
    leave (.error x) s = .err x { s with key := zeros keySize, seed := zeros 64, out := zeros s.out.length } := rfl
theorem leave_ok (s : KeyMem) : leave (.ok ()) s = .ok () { s with key := zeros keySize, seed := zeros 64 } := rfl

theorem call_ok {f : KeyMem → Bool × KeyMem} {s : KeyMem} (h : (f s).1 = true) : sdkCall f s = .ok () (f s).2 := by
  unfold sdkCall
  rcases hf : f s with ⟨b, t⟩
  rw [hf] at h
  cases h
  rfl
theorem call_err {f : KeyMem → Bool × KeyMem} {s : KeyMem} (h : (f s).1 = false) : sdkCall f s = .err 5 (f s).2 := by
  unfold sdkCall
  rcases hf : f s with ⟨b, t⟩
  rw [hf] at h
  cases h
  rfl

theorem given_ok {α : Type} {r : Bool × α} (h : r.1 = true) : given r = some r.2 := by unfold given; rw [h]; rfl
theorem given_err {α : Type} {r : Bool × α} (h : r.1 = false) : given r = none := by unfold given; rw [h]; rfl

/-- Derivation. -/
theorem deriveKey_run (k : Sdk) (path : Bytes) (s : KeyMem) (h1 : s.seed = zeros 64) (h2 : s.key = zeros keySize) :
    (∃ x seed key, deriveKey k path s = .err x { s with seed := seed, key := key } ∧ k.privateKey path = none) ∨
    ∃ seed key, deriveKey k path s = .ok () { s with seed := seed, key := key } ∧ k.privateKey path = some key := by
  obtain ⟨seed, key, pub, out, size⟩ := s
  dsimp only at h1 h2
  subst h1 h2
  unfold deriveKey Sdk.privateKey
  rw [bind_run]
  cases hd : (k.derive path (zeros 64)).1 with
  | false =>
    rw [call_err (by exact hd), given_err (r := k.derive path (List.replicate 64 0)) hd]
    exact .inl ⟨_, _, _, rfl, rfl⟩
  | true =>
    rw [call_ok (by exact hd), given_ok (r := k.derive path (List.replicate 64 0)) hd]
    dsimp only [Res.bind_ok]
    show (∃ x seed key, _ ∧ given (k.initKey ((k.derive path (List.replicate 64 0)).2.take 32) (List.replicate 40 0)) = none) ∨
      ∃ seed key, _ ∧ given (k.initKey ((k.derive path (List.replicate 64 0)).2.take 32) (List.replicate 40 0)) = some key
    cases hi : (k.initKey ((k.derive path (zeros 64)).2.take 32) (zeros keySize)).1 with
    | false =>
      rw [call_err (by exact hi), given_err (r := k.initKey ((k.derive path (List.replicate 64 0)).2.take 32) (List.replicate 40 0)) hi]
      exact .inl ⟨_, _, _, rfl, rfl⟩
    | true =>
      rw [call_ok (by exact hi), given_ok (r := k.initKey ((k.derive path (List.replicate 64 0)).2.take 32) (List.replicate 40 0)) hi]
      exact .inr ⟨_, _, rfl, rfl⟩

/-- The four parts of a signature in an array that is long enough. -/
theorem putSig_parts {xs r s der : Bytes} {v : UInt8} (hr : r.length = 32) (hs : s.length = 32) (hd : der.length = 73) :
    sigR (putSig xs r s v der) = r ∧ sigS (putSig xs r s v der) = s ∧ sigV (putSig xs r s v der) = v ∧ sigDer (putSig xs r s v der) = der := by
  unfold putSig poke sigR sigS sigV sigDer
  refine ⟨?_, ?_, ?_, ?_⟩
  · simp [List.take_append, hr]
  · simp [List.take_append, List.drop_append, hr, hs]
  · simp [List.getElem?_append, hr, hs]
  · rw [show r ++ s ++ [v] ++ der ++ xs.drop (r ++ s ++ [v] ++ der).length = (r ++ s ++ [v]) ++ (der ++ xs.drop (r ++ s ++ [v] ++ der).length) by simp,
      List.drop_left' (by simp [hr, hs]), List.take_left' hd]

theorem zeros_parts {n : Nat} (hn : 138 ≤ n) : sigR (zeros n) = zeros 32 ∧ sigS (zeros n) = zeros 32 ∧ sigV (zeros n) = 0 ∧ sigDer (zeros n) = zeros 73 := by
  unfold sigR sigS sigV sigDer zeros
  refine ⟨?_, ?_, ?_, ?_⟩
  · rw [List.take_replicate]; congr 1; omega
  · rw [List.drop_replicate, List.take_replicate]; congr 1; omega
  · rw [List.getD_eq_getElem?_getD, List.getElem?_replicate, if_pos (by omega)]; rfl
  · rw [List.drop_replicate, List.take_replicate]; congr 1; omega

/-- The calls of signing. -/
theorem signCalls_run (k : Sdk) (path digest : Bytes) (s : KeyMem) (h1 : s.seed = zeros 64) (h2 : s.key = zeros keySize) {n : Nat} (ho : s.out = zeros n) :
    (∃ x t, signCalls k path digest s = .err x t ∧ t.size = s.size ∧ (k.Ok → 138 ≤ n → t.out.length = n ∧ k.signature path digest = none)) ∨
    ∃ t, signCalls k path digest s = .ok () t ∧
      (k.Ok → 138 ≤ n → t.out.length = n ∧ 65 ≤ t.size ∧ t.size ≤ 138 ∧ k.signature path digest = some (t.out.take t.size)) := by
  unfold signCalls Sdk.signature
  rw [bind_run]
  rcases deriveKey_run k path s h1 h2 with ⟨x, seed, key, h3, h4⟩ | ⟨seed, key, h3, h4⟩
  · rw [h3, h4]; exact .inl ⟨x, _, rfl, rfl, fun _ _ => ⟨by dsimp only; rw [ho]; exact List.length_replicate, rfl⟩⟩
  rw [h3, h4]
  dsimp only [Res.bind_ok, bind_run, get_run]
  have hspec : ∀ z, k.Ok → 138 ≤ n → k.ecdsa key digest (sigDer s.out) = z → k.ecdsa key digest (List.replicate 73 0) = z := by
    intro z _ hn hz
    rw [← hz, ho, (zeros_parts hn).2.2.2]; rfl
  have hlen : ∀ {xs r t der : Bytes} {v : UInt8}, r.length = 32 → t.length = 32 → der.length = 73 → 138 ≤ xs.length → (putSig xs r t v der).length = xs.length := by
    intro xs r t der v a1 a2 a3 a4
    simp [putSig, poke, a1, a2, a3]; omega
  have hder : k.Ok → 138 ≤ n → (k.ecdsa key digest (sigDer s.out)).2.1.length = 73 ∧ (k.ecdsa key digest (sigDer s.out)).2.2.1 ≤ 73 := fun hk hn =>
    ⟨hk.der _ _ _ (by rw [ho, (zeros_parts hn).2.2.2]; exact List.length_replicate), hk.derLength _ _ _⟩
  generalize k.ecdsa key digest (sigDer s.out) = e at hspec hder
  have hz : 138 ≤ n → sigR s.out = zeros 32 ∧ sigS s.out = zeros 32 ∧ sigV s.out = 0 ∧ s.out.length = n := by
    intro hn
    rw [ho]
    exact ⟨(zeros_parts hn).1, (zeros_parts hn).2.1, (zeros_parts hn).2.2.1, List.length_replicate⟩
  have z32 : (zeros 32).length = 32 := List.length_replicate
  cases he : e.1 with
  | false =>
    rw [call_err rfl]
    refine .inl ⟨_, _, rfl, rfl, fun hk hn => ⟨?_, ?_⟩⟩
    · obtain ⟨y1, y2, y3, y4⟩ := hz hn
      dsimp only
      rw [hlen (by rw [y1]; exact z32) (by rw [y2]; exact z32) (hder hk hn).1 (by omega), y4]
    · show (given (k.ecdsa key digest (List.replicate 73 0))).bind _ = none
      rw [hspec e hk hn rfl, given_err he]; rfl
  | true =>
    rw [call_ok rfl]
    dsimp only [Res.bind_ok, bind_run, get_run]
    generalize hy : putSig s.out (sigR s.out) (sigS s.out) (sigV s.out) e.2.1 = y
    have hyp : k.Ok → 138 ≤ n → sigR y = zeros 32 ∧ sigS y = zeros 32 ∧ sigV y = 0 ∧ sigDer y = e.2.1 ∧ y.length = n := by
      intro hk hn
      obtain ⟨y1, y2, y3, y4⟩ := hz hn
      have := putSig_parts (xs := s.out) (v := sigV s.out) (show (sigR s.out).length = 32 by rw [y1]; exact z32) (show (sigS s.out).length = 32 by rw [y2]; exact z32) (hder hk hn).1
      rw [hy] at this
      exact ⟨this.1.trans y1, this.2.1.trans y2, this.2.2.1.trans y3, this.2.2.2, by rw [← hy, hlen (by rw [y1]; exact z32) (by rw [y2]; exact z32) (hder hk hn).1 (by omega), y4]⟩
    have hspec' : ∀ z, k.Ok → 138 ≤ n → k.rsv (sigDer y) e.2.2.2 (sigR y) (sigS y) (sigV y) = z →
        k.rsv e.2.1 e.2.2.2 (List.replicate 32 0) (List.replicate 32 0) 0 = z := by
      intro z hk hn hz
      obtain ⟨y1, y2, y3, y4, y5⟩ := hyp hk hn
      rw [← hz, y1, y2, y3, y4]; rfl
    have hrs : k.Ok → 138 ≤ n → (k.rsv (sigDer y) e.2.2.2 (sigR y) (sigS y) (sigV y)).2.1.length = 32 ∧
        (k.rsv (sigDer y) e.2.2.2 (sigR y) (sigS y) (sigV y)).2.2.1.length = 32 := by
      intro hk hn
      obtain ⟨y1, y2, y3, y4, y5⟩ := hyp hk hn
      exact hk.rsv _ _ _ _ _ (by rw [y1]; exact z32) (by rw [y2]; exact z32)
    generalize k.rsv (sigDer y) e.2.2.2 (sigR y) (sigS y) (sigV y) = c at hspec' hrs
    have sg : k.Ok → 138 ≤ n → (given (k.ecdsa key digest (List.replicate 73 0))).bind (fun x => (given (k.rsv x.1 x.2.2 (List.replicate 32 0) (List.replicate 32 0) 0)).bind
        fun z => some (z.1 ++ z.2.1 ++ [z.2.2] ++ x.1.take x.2.1)) = (given c).bind fun z => some (z.1 ++ z.2.1 ++ [z.2.2] ++ e.2.1.take e.2.2.1) := by
      intro hk hn
      rw [hspec e hk hn rfl, given_ok he]
      dsimp only [Option.bind_some]
      rw [hspec' c hk hn rfl]
    cases hc : c.1 with
    | false =>
      rw [call_err rfl]
      refine .inl ⟨_, _, rfl, rfl, fun hk hn => ⟨?_, ?_⟩⟩
      · obtain ⟨y1, y2, y3, y4, y5⟩ := hyp hk hn
        dsimp only
        rw [hlen (hrs hk hn).1 (hrs hk hn).2 (by rw [y4]; exact (hder hk hn).1) (by omega), y5]
      · refine (sg hk hn).trans ?_
        rw [given_err hc]; rfl
    | true =>
      rw [call_ok rfl]
      refine .inr ⟨_, rfl, fun hk hn => ?_⟩
      obtain ⟨y1, y2, y3, y4, y5⟩ := hyp hk hn
      have hd := hder hk hn
      have hr := hrs hk hn
      dsimp only
      rw [u16_id (by omega), hlen hr.1 hr.2 (by rw [y4]; exact hd.1) (by omega)]
      refine ⟨y5, by omega, by omega, (sg hk hn).trans ?_⟩
      rw [given_ok hc]
      dsimp only [Option.bind_some]
      congr 1
      unfold putSig poke
      rw [y4, show 32 + 32 + 1 + e.2.2.1 = (c.2.1 ++ c.2.2.1 ++ [c.2.2.2]).length + e.2.2.1 by simp [hr.1, hr.2],
        show c.2.1 ++ c.2.2.1 ++ [c.2.2.2] ++ e.2.1 ++ y.drop (c.2.1 ++ c.2.2.1 ++ [c.2.2.2] ++ e.2.1).length =
          (c.2.1 ++ c.2.2.1 ++ [c.2.2.2]) ++ (e.2.1 ++ y.drop (c.2.1 ++ c.2.2.1 ++ [c.2.2.2] ++ e.2.1).length) by simp,
        List.take_length_add_append, List.take_append_of_le_length (by omega)]

/-- Signing. -/
theorem cryptoSign_run (k : Sdk) (path digest : Bytes) (s : KeyMem) :
    (∃ x t, cryptoSign k path digest s = .err x t ∧ t.seed = zeros 64 ∧ t.key = zeros keySize ∧ t.out = zeros t.out.length ∧ t.size = 0 ∧
      (k.Ok → 138 ≤ s.out.length → t.out.length = s.out.length ∧ k.signature path digest = none)) ∨
    ∃ t, cryptoSign k path digest s = .ok () t ∧ t.seed = zeros 64 ∧ t.key = zeros keySize ∧
      (k.Ok → 138 ≤ s.out.length → t.out.length = s.out.length ∧ 65 ≤ t.size ∧ t.size ≤ 138 ∧ k.signature path digest = some (t.out.take t.size)) := by
  unfold cryptoSign
  show (∃ x t, Res.bind (attempt (signCalls k path digest) ⟨zeros 64, zeros keySize, s.pub, zeros s.out.length, 0⟩) leave = .err x t ∧ _) ∨
    ∃ t, Res.bind (attempt (signCalls k path digest) ⟨zeros 64, zeros keySize, s.pub, zeros s.out.length, 0⟩) leave = .ok () t ∧ _
  rcases signCalls_run k path digest ⟨zeros 64, zeros keySize, s.pub, zeros s.out.length, 0⟩ rfl rfl (n := s.out.length) rfl with ⟨x, t, h1, h2, h3⟩ | ⟨t, h1, h3⟩
  · rw [attempt_err h1]
    refine .inl ⟨x, _, leave_error x t, rfl, rfl, ?_, h2, fun hk hn => ⟨?_, (h3 hk hn).2⟩⟩
    · dsimp only; rw [show (zeros t.out.length).length = t.out.length from List.length_replicate]
    · dsimp only; rw [show (zeros t.out.length).length = t.out.length from List.length_replicate]; exact (h3 hk hn).1
  · rw [attempt_ok h1]
    exact .inr ⟨_, leave_ok t, rfl, rfl, h3⟩

/-- The calls of key extraction. -/
theorem publicCalls_run (k : Sdk) (path : Bytes) (s : KeyMem) (h1 : s.seed = zeros 64) (h2 : s.key = zeros keySize) (h5 : s.pub = zeros 65) :
    (∃ x t, publicCalls k path s = .err x t ∧ t.out = s.out ∧ k.publicKey path = none) ∨
    ∃ t, publicCalls k path s = .ok () t ∧ (k.Ok → k.publicKey path = some t.out) := by
  unfold publicCalls Sdk.publicKey
  rw [bind_run]
  rcases deriveKey_run k path s h1 h2 with ⟨x, seed, key, h3, h4⟩ | ⟨seed, key, h3, h4⟩
  · rw [h3, h4]; exact .inl ⟨x, _, rfl, rfl, rfl⟩
  rw [h3, h4]
  dsimp only [Res.bind_ok, bind_run]
  rw [h5]
  show (∃ x, ∃ t : KeyMem, _ ∧ _ ∧ (given (k.initPub (List.replicate 65 0))).bind (fun w => (given (k.pair w key)).bind fun z => some (compressed z.1)) = none) ∨
    ∃ t : KeyMem, _ ∧ (k.Ok → (given (k.initPub (List.replicate 65 0))).bind (fun w => (given (k.pair w key)).bind fun z => some (compressed z.1)) = some t.out)
  cases hi : (k.initPub (zeros 65)).1 with
  | false =>
    rw [call_err (by exact hi), given_err (r := k.initPub (List.replicate 65 0)) hi]
    exact .inl ⟨_, _, rfl, rfl, rfl⟩
  | true =>
    rw [call_ok (by exact hi), given_ok (r := k.initPub (List.replicate 65 0)) hi]
    dsimp only [Res.bind_ok, Option.bind_some]
    rw [show List.replicate 65 0 = zeros 65 from rfl]
    have hw : k.Ok → (k.initPub (zeros 65)).2.length = 65 := fun hk => hk.initPub _ List.length_replicate
    generalize (k.initPub (zeros 65)).2 = w at hw
    have hq : k.Ok → (k.pair w key).2.1.length = 65 := fun hk => hk.pair _ _ (hw hk)
    cases hp : (k.pair w key).1 with
    | false =>
      rw [call_err (by exact hp), given_err hp]
      exact .inl ⟨_, _, rfl, rfl, rfl⟩
    | true =>
      rw [call_ok (by exact hp), given_ok hp]
      refine .inr ⟨_, rfl, fun hk => ?_⟩
      dsimp only [Option.bind_some]
      have := hq hk
      generalize (k.pair w key).2.1 = u at this
      unfold compressed
      congr 1
      rw [List.take_succ_cons]
      congr 1
      have hb : ∀ b : UInt8, (b &&& 1 = 1) ↔ b.toNat % 2 = 1 := by
        intro b
        constructor
        · intro h
          have := congrArg UInt8.toNat h
          rwa [UInt8.toNat_and, show (1 : UInt8).toNat = 1 from rfl, Nat.and_one_is_mod] at this
        · intro h
          apply UInt8.toNat_inj.1
          rw [UInt8.toNat_and, show (1 : UInt8).toNat = 1 from rfl, Nat.and_one_is_mod, h]
      by_cases h : (u.getD 64 0).toNat % 2 = 1
      · rw [if_pos h, if_pos ((hb _).2 h)]
      · rw [if_neg h, if_neg (fun x => h ((hb _).1 x))]

/-- Key extraction. -/
theorem extractPublicKey_run (k : Sdk) (path : Bytes) (s : KeyMem) :
    (∃ x t, extractPublicKey k path s = .err x t ∧ t.seed = zeros 64 ∧ t.key = zeros keySize ∧ t.out = zeros s.out.length ∧ k.publicKey path = none) ∨
    ∃ t, extractPublicKey k path s = .ok () t ∧ t.seed = zeros 64 ∧ t.key = zeros keySize ∧ (k.Ok → k.publicKey path = some t.out) := by
  unfold extractPublicKey
  show (∃ x t, Res.bind (attempt (publicCalls k path) ⟨zeros 64, zeros keySize, zeros 65, s.out, s.size⟩) leave = .err x t ∧ _) ∨
    ∃ t, Res.bind (attempt (publicCalls k path) ⟨zeros 64, zeros keySize, zeros 65, s.out, s.size⟩) leave = .ok () t ∧ _
  rcases publicCalls_run k path ⟨zeros 64, zeros keySize, zeros 65, s.out, s.size⟩ rfl rfl rfl with ⟨x, t, h1, h2, h3⟩ | ⟨t, h1, h3⟩
  · rw [attempt_err h1]
    exact .inl ⟨x, _, leave_error x t, rfl, rfl, by dsimp only; rw [h2], h3⟩
  · rw [attempt_ok h1]
    exact .inr ⟨_, leave_ok t, rfl, rfl, h3⟩

/-- C60, signing leaves no key behind: whatever the calls into the SDK do and wherever they fail, whatever the memory contains before, the derived
seed and the private key are zero bytes afterwards; after a failure the output is zero bytes as well and its length is 0. -/
theorem C60_signing_wipes (k : Sdk) (path digest : Bytes) (s : KeyMem) :
    ∃ t, (cryptoSign k path digest s).memory = some t ∧ t.seed.length = 64 ∧ AllZero t.seed ∧ t.key.length = 40 ∧ AllZero t.key ∧
      (∀ x, cryptoSign k path digest s = .err x t → AllZero t.out ∧ t.size = 0) := by
  rcases cryptoSign_run k path digest s with ⟨x, t, h1, h2, h3, h4, h5, _⟩ | ⟨t, h1, h2, h3, _⟩
  · rw [h1]
    refine ⟨t, rfl, ?_, ?_, ?_, ?_, fun _ _ => ⟨?_, h5⟩⟩
    · rw [h2]; exact List.length_replicate
    · rw [h2]; exact allZero_zeros _
    · rw [h3]; exact List.length_replicate
    · rw [h3]; exact allZero_zeros _
    · rw [h4]; exact allZero_zeros _
  · rw [h1]
    refine ⟨t, rfl, ?_, ?_, ?_, ?_, nofun⟩
    · rw [h2]; exact List.length_replicate
    · rw [h2]; exact allZero_zeros _
    · rw [h3]; exact List.length_replicate
    · rw [h3]; exact allZero_zeros _

/-- C60, so does the extraction of a public key. -/
theorem C60_extraction_wipes (k : Sdk) (path : Bytes) (s : KeyMem) :
    ∃ t, (extractPublicKey k path s).memory = some t ∧ t.seed.length = 64 ∧ AllZero t.seed ∧ t.key.length = 40 ∧ AllZero t.key ∧
      (∀ x, extractPublicKey k path s = .err x t → AllZero t.out) := by
  rcases extractPublicKey_run k path s with ⟨x, t, h1, h2, h3, h4, _⟩ | ⟨t, h1, h2, h3, _⟩
  · rw [h1]
    refine ⟨t, rfl, ?_, ?_, ?_, ?_, fun _ _ => ?_⟩
    · rw [h2]; exact List.length_replicate
    · rw [h2]; exact allZero_zeros _
    · rw [h3]; exact List.length_replicate
    · rw [h3]; exact allZero_zeros _
    · rw [h4]; exact allZero_zeros _
  · rw [h1]
    refine ⟨t, rfl, ?_, ?_, ?_, ?_, nofun⟩
    · rw [h2]; exact List.length_replicate
    · rw [h2]; exact allZero_zeros _
    · rw [h3]; exact List.length_replicate
    · rw [h3]; exact allZero_zeros _

/-- C60, what is answered when a signature is asked for: the signature made with the key of the path over the digest (r, s, v, DER), and nothing if one
of the calls fails; in particular nothing of what the memory contained before. -/
theorem C60_signature (k : Sdk) (hk : k.Ok) (path digest : Bytes) (s : KeyMem) (hs : 138 ≤ s.out.length) :
    signAnswer k path digest s = k.signature path digest ∧ ∀ xs, signAnswer k path digest s = some xs → 65 ≤ xs.length ∧ xs.length ≤ 138 := by
  unfold signAnswer
  rcases cryptoSign_run k path digest s with ⟨x, t, h1, _, _, _, _, h6⟩ | ⟨t, h1, _, _, h4⟩
  · rw [h1, (h6 hk hs).2]
    exact ⟨rfl, nofun⟩
  · obtain ⟨h5, h6, h7, h8⟩ := h4 hk hs
    rw [h1, h8]
    dsimp only
    rw [if_neg (by omega)]
    refine ⟨rfl, fun xs h => ?_⟩
    rw [← Option.some.inj h, List.length_take]
    omega

/-- C60, the public key that is answered is the compressed public key of the path, or nothing. -/
theorem C60_public_key (k : Sdk) (hk : k.Ok) (path : Bytes) (s : KeyMem) : keyAnswer k path s = k.publicKey path := by
  unfold keyAnswer
  rcases extractPublicKey_run k path s with ⟨x, t, h1, _, _, _, h5⟩ | ⟨t, h1, _, _, h4⟩
  · rw [h1, h5]
  · rw [h1, h4 hk]

/-- C60, at the device: if signatures come from `crypto_sign`, over any calls into the SDK that respect the sizes and any memory before, then an approval is answered
by the signature with the key of the path in force, of 65 to 138 bytes, or by no data and the status 0x6F01, which is the answer whenever one of the calls fails. -/
theorem C60_answer (k : Sdk) (hk : k.Ok) (before : Bytes → Bytes → KeyMem) (hb : ∀ p h, 138 ≤ (before p h).out.length) (pl : Platform)
    (hp : pl.sign = fun p h => signAnswer k p h (before p h)) (d d' : Dev) (hr : d.review ≠ some .address) (xs : Bytes) (sw : Nat)
    (h : step pl d .approve = (d', .reply xs sw)) :
    (xs = [] ∧ sw = 0x6F01) ∨ (65 ≤ xs.length ∧ xs.length ≤ 138 ∧ sw = 0x9000 ∧ ∃ m, k.signature d.hdPath (pl.sha256 m) = some xs) := by
  rcases hv : d.review with _ | r
  · simp [step, hv] at h
  have h2 : appSign pl { d with review := none } = (d', .reply xs sw) := by
    cases r with
    | address => exact absurd hv hr
    | _ => simpa [step, hv] using h
  unfold appSign at h2
  split at h2
  · cases h2
  · injection h2 with _ h2; injection h2 with h3 h4
    exact .inl ⟨h3.symm, h4.symm⟩
  · rename_i m _ _
    split at h2
    · injection h2 with _ h2; injection h2 with h3 h4
      exact .inl ⟨h3.symm, h4.symm⟩
    · rename_i sig hs
      injection h2 with _ h2; injection h2 with h3 h4
      subst h3
      rw [hp] at hs
      obtain ⟨c1, c2⟩ := C60_signature k hk d.hdPath (pl.sha256 m) _ (hb d.hdPath (pl.sha256 m))
      exact .inr ⟨(c2 _ hs).1, (c2 _ hs).2, h4.symm, m, c1 ▸ hs⟩

/-- A case: calls that all succeed, and calls of which the last fails after writing. -/
def sampleSdk (b : Bool) : Sdk where
  derive p _ := (true, p ++ List.replicate 44 7)
  initKey x _ := (true, 33 :: 32 :: x)
  initPub w := (true, w)
  pair _ x := (true, 4 :: (List.replicate 63 9 ++ [5]), x)
  ecdsa _ h a := (true, (48 :: h ++ List.replicate 73 1).take a.length, 71, 1)
  rsv a i _ _ _ := (b, (a ++ List.replicate 32 0).take 32, (a.drop 32 ++ List.replicate 32 0).take 32, UInt8.ofNat i)

example (b : Bool) : (sampleSdk b).Ok where
  pair _ _ _ := by simp [sampleSdk]
  initPub _ h := h
  der _ _ _ h := by simp [sampleSdk, h]
  derLength _ _ _ := by simp [sampleSdk]
  rsv _ _ _ _ _ _ _ := by simp [sampleSdk]

example : (signAnswer (sampleSdk true) (List.replicate 20 3) (List.replicate 32 8) ⟨[], [1], [2], List.replicate 257 6, 9⟩).map List.length = some 136 ∧
    signAnswer (sampleSdk false) (List.replicate 20 3) (List.replicate 32 8) ⟨[], [1], [2], List.replicate 257 6, 9⟩ = none ∧
    keyAnswer (sampleSdk true) (List.replicate 20 3) ⟨[], [1], [2], List.replicate 33 6, 9⟩ = some (3 :: List.replicate 32 9) := by decide +kernel

end Casper
