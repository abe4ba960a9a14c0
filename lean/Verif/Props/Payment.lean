import Verif.Props.Transfers
import Verif.Props.Deploys
/-
C11: the payment of accepted Deploys and the "Fee" line.
-/
namespace Casper
open M

/-! ### Inversion of looking up and showing one argument -/

/-- One named argument that `getData` found (looking at no more than one): where it stands. -/
theorem getData_one {e : Env} (hf : Fits e) {name : Bytes} {off : Nat} : Post (getData e name 1) off (fun r t =>
    ∃ nm v x, At e.buf off (pfx nm ++ (pfx v ++ [x])) ∧ nm.length ≤ 300 ∧ cstr nm = name ∧ r.1 = v.length ∧ r.2 = x.toNat ∧
      t = off + 4 + nm.length + 4) := by
  unfold getData
  refine (copyItem_post hf).seq fun nm t ⟨h1, h2, h3, h4⟩ => Post.ite (fun h5 => ?_) fun _ => ?_
  · refine readU32_post.seq fun len u ⟨h6, h7, h8, h9⟩ => Post.getThen (Post.ite (fun _ => .fail) fun h10 => ?_)
    subst h8 h3
    unfold Fits at hf
    refine Post.runThen (skip_run (by omega)) (getType_post.seq fun r w ⟨_, _, x, h11, h12, _⟩ => ?_)
    refine Post.setThen (Post.pure ?_)
    obtain ⟨l1, l2, e1, n1⟩ := split_at (l := e.buf) (n := off + 4 + nm.length + 4) h9
    obtain ⟨v, l3, e2, n2⟩ := split_at (l := l2) (n := len) (by have := congrArg List.length e1; simp at this; omega)
    have hv : At e.buf (off + 4 + nm.length + 4) v := ⟨l1, l3, by rw [e1, e2]; simp, n1⟩
    refine ⟨nm, v, x, ?_, h2, h5, n2.symm, h12, rfl⟩
    rw [At.append, At.append, pfx_length, pfx_length]
    refine ⟨h1, ?_, h11.cast (by omega)⟩
    rw [pfx, At.append]
    refine ⟨(n2.symm ▸ h6).cast (by omega), hv.cast (by simp; omega)⟩
  · exact parseItem_post.seq fun _ _ _ => getType_post.seq fun _ _ _ => by unfold getData; exact .fail

/-- The type `searchArgs` reports for the only argument. -/
theorem searchArgs_one {e : Env} (hf : Fits e) {name : Bytes} {off : Nat} : Post (searchArgs e name 1) off (fun r _ =>
    ∃ nm n x, At e.buf off (pfx nm) ∧ At e.buf (off + 4 + nm.length) (le 4 n) ∧ n < 4294967296 ∧
      At e.buf (u16 (off + 4 + nm.length + 4 + n)) [x] ∧ r.1 = x.toNat) := by
  unfold searchArgs
  refine Post.getThen ?_
  unfold searchFrom
  refine (copyItem_post hf).seq fun nm t ⟨h1, h2, h3, h4⟩ => Post.ite (fun h5 => ?_) fun _ => ?_
  · refine parseItem_post.seq fun _ u ⟨n, h6, h7, h8, h9, h10⟩ => getType_post.seq fun r w ⟨_, _, x, h11, h12, _⟩ => ?_
    subst h3 h10
    exact Post.setThen (Post.pure ⟨nm, n, x, h1, h6, h7, h11, h12⟩)
  · exact parseItem_post.seq fun _ _ _ => getType_post.seq fun _ _ _ => by unfold searchFrom; exact Post.setThen .fail

/-- The payment of an accepted Deploy. -/
theorem DeployAccepted.payment {e : Env} (hs : Small e) {s : DS} (h : DeployAccepted e s) {p q : IS} {k : Nat} (hp : DeployParse e s p q k)
    (hl : headerLength s.dep.header + 32 ≤ e.buf.length) :
    ∃ code name v, At e.buf (headerLength s.dep.header + 32) (ExecItem.moduleBytes code [⟨name, v, .u512⟩]).encode ∧
      p.off = headerLength s.dep.header + 32 + (ExecItem.moduleBytes code [⟨name, v, .u512⟩]).encode.length ∧
      cstr name = b!"amount" ∧ v ≠ [] ∧
      ∃ c, getItemDeploy e s.epo s.dep (if e.expert then 8 else 4) 0 = .ok (b!"Fee", motesOf (leVal v.tail % 10 ^ 256)) c := by
  have hf := hs.to_fits
  have hs' := hs
  unfold Small at hs'
  have hb : s.dep.header.bodyStart = headerLength s.dep.header + 32 := u16_id (by omega)
  obtain ⟨-, p1, p2, o1, r, p3, p4, p5, p6, p7⟩ := hp.payment hf
  rw [hb] at p1 p2 p3
  have hpt := hp.payType
  rw [hb] at hpt
  have hn : (if e.expert then 8 else 4) < numItemsDeploy e s.dep := by
    unfold numItemsDeploy u8
    rw [hp.result]
    dsimp only
    have h2 := parseDeployItem_few _ _ hp.ses
    have h3 := h2.1
    have h4 := h2.2
    rw [p1]
    dsimp only
    split <;> omega
  obtain ⟨kv, c, hi⟩ := h.items _ hn
  have key : Post (getItemDeploy e s.epo s.dep (if e.expert then 8 else 4)) 0 (fun kv _ =>
      ∃ code name v, At e.buf (headerLength s.dep.header + 32) (ExecItem.moduleBytes code [⟨name, v, .u512⟩]).encode ∧
        p.off = headerLength s.dep.header + 32 + (ExecItem.moduleBytes code [⟨name, v, .u512⟩]).encode.length ∧
        cstr name = b!"amount" ∧ v ≠ [] ∧ kv = (b!"Fee", motesOf (leVal v.tail % 10 ^ 256))) := by
    have hbody : getItemDeploy e s.epo s.dep (if e.expert then 8 else 4) = bodyLine e s.epo s.dep (if e.expert then 8 else 4) := by
      unfold getItemDeploy
      rw [if_neg (by omega)]
      cases e.expert <;> rfl
    rw [hbody]
    unfold bodyLine
    refine Post.runThen (t := headerLength s.dep.header + 32) (a := ()) (by show Res.ok () (u16 _) = _; rw [u16_id (by omega)]) ?_
    dsimp only
    have htp : s.dep.payment = { special := 1, total := p.off - (headerLength s.dep.header + 32), runtime := 1, hasAmount := true } := by
      rw [hp.result]; exact p1
    rw [htp]
    dsimp only
    rw [Nat.sub_self, if_pos (by decide), if_pos rfl]
    unfold itemSystemPayment
    refine Post.runThen (skip_run (by omega)) (readU32_post.seq fun len t ⟨h1, h2, h3, h4⟩ => Post.getThen (Post.ite (fun _ => .fail) fun h5 => ?_))
    subst h3
    refine Post.runThen (skip_run (by omega)) (Post.getThen (readU32_post.seq fun n u ⟨h6, h7, h8, h9⟩ => ?_))
    subst h8
    dsimp only
    rw [if_neg (by decide), if_pos (by decide), if_pos rfl]
    unfold showMotes
    refine (getData_one hf).seq fun r u ⟨nm, v, x, g1, g2, g3, g4, g5, g6⟩ => ?_
    -- the code
    obtain ⟨l1, l2, e1, n1⟩ := split_at (l := e.buf) (n := headerLength s.dep.header + 32 + 1 + 4) h4
    obtain ⟨code, l3, e2, n2⟩ := split_at (l := l2) (n := len) (by have := congrArg List.length e1; simp at this; omega)
    have hcode : At e.buf (headerLength s.dep.header + 32 + 1 + 4) code := ⟨l1, l3, by rw [e1, e2]; simp, n1⟩
    have hpc : At e.buf (headerLength s.dep.header + 32 + 1) (pfx code) := by
      rw [pfx, At.append, n2]; exact ⟨h1, hcode.cast (by simp)⟩
    -- where the parser saw the arguments
    have ho1 : o1 = headerLength s.dep.header + 32 + 1 + 4 + len := by
      have := parseItem_at (ys := []) hf (xs := code) (off := headerLength s.dep.header + 32 + 1) (by rw [List.append_nil]; exact hpc)
      rw [p3, n2] at this
      exact (Res.ok.inj this).2
    have h61 : n = 1 := by
      have h10 : readU32 e o1 = .ok n (o1 + 4) := by rw [ho1]; exact readLE_at (e := e) h6 (by omega)
      rw [p4] at h10
      exact ((Res.ok.inj h10).1).symm
    subst h61
    rw [ho1] at p5
    obtain ⟨nm', m, y, s1, s2, s3, s4, s5⟩ := searchArgs_one hf _ _ p5
    have g1' := g1
    rw [At.append] at g1'
    have : nm' = nm := s1.pfx_inj hf g1'.1
    subst this
    have gv := g1'.2
    rw [At.append, pfx_length] at gv
    have hm : m = v.length := by
      have q1 := gv.1
      rw [pfx, At.append] at q1
      have q2 := q1.1.le
      have q3 := q1.2.le
      exact At.le_inj (n := 4) s2 (q1.1.cast (by omega)) (by omega) (by omega)
    subst hm
    have hgl := gv.1.le
    rw [pfx_length] at hgl
    rw [u16_id (by omega)] at s4
    have hxy : y = x := by
      have := s4.unique (gv.2.cast (by rw [pfx_length]; omega)) rfl
      exact (List.cons.inj this).1
    subst hxy
    have hx8 : y.toNat = 8 := by rw [← s5]; exact p6
    have hy : y = 8 := by rw [← UInt8.toNat_inj]; exact hx8
    subst hy
    have hargs : At e.buf (headerLength s.dep.header + 32 + 1 + 4 + len + 4) (encodeArgs [⟨nm', v, .u512⟩]) := by
      simpa [encodeArgs, Arg.encode, CLType.encode, CLType.tag] using g1
    have hok : ∀ a ∈ ([⟨nm', v, .u512⟩] : List Arg), a.Ok := by
      intro a ha; simp only [List.mem_singleton] at ha; subst ha; exact ⟨g2, rfl, rfl⟩
    obtain ⟨r1, r2⟩ := r
    dsimp only at g4 g5 ⊢
    rw [g5]
    unfold displayMotes
    refine Post.seq (P := fun kv _ => v ≠ [] ∧ kv = motesOf (leVal v.tail % 10 ^ 256)) ?_ fun txt w ⟨k1, k2⟩ => Post.pure ⟨code, nm', v, ?_, ?_, g3, k1, by rw [k2]⟩
    · refine Post.getThen (Post.ite (fun _ => .fail) fun _ => Post.ite (fun _ => .fail) fun k3 => ?_)
      rw [g4] at k3 ⊢
      have hne : v ≠ [] := fun h => k3 (by rw [h]; rfl)
      rw [if_neg (by decide), if_neg (by decide), if_pos (by decide)]
      unfold amountBignum
      obtain ⟨b, vs, rfl⟩ := List.exists_cons_of_ne_nil hne
      have q1 := gv.1
      rw [pfx, At.append] at q1
      have q2 := (At.cons.1 q1.2).2
      refine Post.getThen ?_
      rw [g6]
      refine Post.runThen (slice_at (q2.cast (by simp; omega)) (by simp)) ?_
      intro a t ht
      rw [motesText_decimal _ (Nat.mod_lt _ (by positivity))] at ht
      exact ⟨hne, ((Res.ok.inj ht).1).symm⟩
    · show At _ _ (0 :: (pfx code ++ encodeRuntimeArgs [⟨nm', v, .u512⟩]))
      rw [At.cons, At.append, pfx_length, n2]
      refine ⟨hpt, hpc, ?_⟩
      unfold encodeRuntimeArgs
      rw [At.append]
      refine ⟨h6.cast (by omega), ?_⟩
      refine At.cast (off := headerLength s.dep.header + 32 + 1 + 4 + len + 4) ?_ (by simp; omega)
      exact hargs
    · have h11 := parseArgs_at hf (as := [⟨nm', v, .u512⟩]) hok hargs
      rw [List.length_singleton, ← ho1, p7] at h11
      rw [(Res.ok.inj h11).2]
      simp [ExecItem.encode, encodeRuntimeArgs, pfx_length, n2]; omega
  obtain ⟨code, name, v, k1, k2, k3, k4, k5⟩ := key _ _ hi
  exact ⟨code, name, v, k1, k2, k3, k4, c, by rw [hi, k5]⟩

/-- **C11.** A transaction review of data `0 :: xs`: `xs` are a header, its hash, a payment, a session and the rest.  The payment is module
bytes with exactly one argument, of type U512, whose name up to the first zero byte is "amount"; item 4 (in expert mode 8) of the review is the
"Fee", and shows the number in the bytes of that argument after the first.  So if the name contains no zero byte it is "amount", and if the
argument is a serialized U512 number then this number is shown.  (In general see `C11_name_false`, `C11_fee_false`.) -/
theorem C11_fee_partial (pl : Platform) (hcap : pl.cap ≤ 16384) (d d' : Dev) (hd : d.Ok pl) (rx : Bytes)
    (pin : Bool) (hins : rx.getD 1 0 = 2) (xs : Bytes) (hx : d.data ++ rx.drop 5 = 0 :: xs)
    (h : step pl d (.apdu rx pin) = (d', .pending)) :
    ∃ hdr code name v ses rest fee,
      xs = hdr ++ pl.blake hdr ++ ((ExecItem.moduleBytes code [⟨name, v, .u512⟩]).encode ++ ses) ++ rest ∧
      (xs.drop (keyLen xs + 24)).take 32 = pl.blake ((ExecItem.moduleBytes code [⟨name, v, .u512⟩]).encode ++ ses) ∧
      (∃ k, ses.head? = some (UInt8.ofNat k) ∧ k ≤ 6) ∧
      (∃ c, reviewItem pl d' .tx (if d.expert then 8 else 4) 0 = .ok (b!"Fee", motesOf fee) c) ∧
      name.takeWhile (· != 0) = b!"amount" ∧ (0 ∉ name → name = b!"amount") ∧
      fee = leVal v.tail % 10 ^ 256 ∧ (∀ k n, k ≤ 64 → n < 256 ^ k → v = bigNum k n → fee = n) := by
  obtain ⟨hok, hdata, hcase⟩ := sign_pending (by omega) hd hins h
  rw [hx] at hcase hdata
  rcases hcase with ⟨ys, s, h1, h2, rfl⟩ | ⟨ys, s, h1, -, -⟩
  swap
  · simp at h1
  simp only [List.cons.injEq, true_and] at h1
  subst h1
  have hsm : Small (mkEnv pl d.expert xs) := small_data hcap hok hdata d.expert
  obtain ⟨p, q, k, hdr, hash, pay, ses, rest, hp, b1, b2, b3, b4, b5, b6, b7⟩ := h2.split hsm
  have hk := readDeploy_kind h2.parse
  have hn := hp.count hsm.to_fits
  have hle := congrArg List.length b1
  simp only [List.length_append] at hle
  obtain ⟨code, name, v, k1, k2, k3, k4, k5⟩ := h2.payment hsm hp (by omega)
  have hpay : At (mkEnv pl d.expert xs).buf (headerLength s.dep.header + 32) pay :=
    ⟨hdr ++ hash, ses ++ rest, by rw [b1]; simp, by simp [b3, b2]⟩
  have hpe : pay = (ExecItem.moduleBytes code [⟨name, v, .u512⟩]).encode := hpay.unique k1 (by omega)
  subst hpe
  have hses : At (mkEnv pl d.expert xs).buf p.off ses :=
    ⟨hdr ++ hash ++ (ExecItem.moduleBytes code [⟨name, v, .u512⟩]).encode, rest, by rw [b1]; simp only [List.append_assoc], by simp only [List.length_append]; omega⟩
  refine ⟨hdr, code, name, v, ses, rest, leVal v.tail % 10 ^ 256, ?_, ?_, ?_, ?_, ?_, ?_, rfl, ?_⟩
  · rw [show pl.blake hdr = hash from b6]; exact b1
  · rw [hp.header.pkLen] at b7
    have := b7.take_drop
    rw [Hash.len] at this
    exact this
  · have hex := hp.extent hsm.to_fits
    refine ⟨k, ?_, hp.small⟩
    have h1 := hp.sesType
    cases ses with
    | nil => simp at b5; omega
    | cons x ses => rw [List.head?_cons, ← (List.cons.inj (h1.unique (At.cons.1 hses).1 rfl)).1]
  · rw [reviewItem_deploy hok hdata s hk]
    have h8 : u8 (if d.expert then 8 else 4) = if d.expert then 8 else 4 := by cases d.expert <;> rfl
    have h9 : (if d.expert then 8 else 4) < numItemsDeploy (mkEnv pl d.expert xs) s.dep := by
      by_contra hc
      obtain ⟨c, k5⟩ := k5
      unfold getItemDeploy at k5
      rw [if_pos (show (if (mkEnv pl d.expert xs).expert then 8 else 4) ≥ numItemsDeploy (mkEnv pl d.expert xs) s.dep by
        show (if d.expert then 8 else 4) ≥ _; omega)] at k5
      cases k5
    rw [show (d.loaded rx).expert = d.expert from rfl, h8, if_neg (by cases hx : d.expert <;> rw [hx] at h9 <;> simp at h9 ⊢ <;> omega)]
    exact k5
  · exact k3
  · intro h0
    rw [← cstr_eq h0, k3]
  · intro k n hk hn hv
    have : n < 10 ^ 256 := by
      have : (256 : Nat) ^ k ≤ 256 ^ 64 := Nat.pow_le_pow_right (by decide) hk
      have := pow_bound
      omega
    subst hv
    show leVal (le k n) % _ = _
    rw [leVal_le k n hn, Nat.mod_eq_of_lt this]

/-- Concretely: the review of the sample Deploy, in both modes. -/
example : ∀ x : Bool,
    (run samplePl { Dev.init samplePl with expert := x } (sampleUpload (0 :: sampleDeploy.tx Blake.H [sampleApproval]))).2.getLast? = some .pending ∧
    (∃ c, reviewItem samplePl (run samplePl { Dev.init samplePl with expert := x } (sampleUpload (0 :: sampleDeploy.tx Blake.H [sampleApproval]))).1
      .tx (if x then 8 else 4) 0 = .ok (b!"Fee", b!"100 000 000 motes") c) := by
  intro x
  cases x <;> exact ⟨by decide +kernel, Res.val_ok.1 (by decide +kernel)⟩

/-- The sample Deploy paying with the given argument. -/
def samplePaying (name v : Bytes) : DeploySpec :=
  { sampleDeploy with payment := .moduleBytes [] [⟨name, v, .u512⟩] }

/-- **C11 fails** for argument names that contain a zero byte: a Deploy whose payment has no argument "amount", only one named "amount", zero
byte, "x", is accepted and a fee shown. -/
theorem C11_name_false :
    (run samplePl (Dev.init samplePl) (sampleUpload (0 :: (samplePaying (b!"amount" ++ [0, 0x78]) (bigNum 4 100000000)).tx Blake.H []))).2.getLast? =
      some .pending ∧
    argNamed (samplePaying (b!"amount" ++ [0, 0x78]) (bigNum 4 100000000)).payment.args b!"amount" = none ∧
    ∃ c, reviewItem samplePl (run samplePl (Dev.init samplePl)
      (sampleUpload (0 :: (samplePaying (b!"amount" ++ [0, 0x78]) (bigNum 4 100000000)).tx Blake.H []))).1 .tx 4 0 =
      .ok (b!"Fee", b!"100 000 000 motes") c :=
  ⟨by decide +kernel, by decide +kernel, Res.val_ok.1 (by decide +kernel)⟩

/-- **C11 fails** for values that are no serialized numbers: the length byte of the amount is ignored.  The value consisting of length byte 0 (the
whole serialization of the number 0) and four more bytes is accepted and shown as the number in these four bytes. -/
theorem C11_fee_false :
    (run samplePl (Dev.init samplePl) (sampleUpload (0 :: (samplePaying b!"amount" (bigNum 0 0 ++ le 4 100000000)).tx Blake.H []))).2.getLast? =
      some .pending ∧
    (¬ ∃ k n, k ≤ 64 ∧ bigNum 0 0 ++ le 4 100000000 = bigNum k n) ∧
    ∃ c, reviewItem samplePl (run samplePl (Dev.init samplePl)
      (sampleUpload (0 :: (samplePaying b!"amount" (bigNum 0 0 ++ le 4 100000000)).tx Blake.H []))).1 .tx 4 0 =
      .ok (b!"Fee", b!"100 000 000 motes") c := by
  refine ⟨by decide +kernel, ?_, Res.val_ok.1 (by decide +kernel)⟩
  rintro ⟨k, n, hk, h⟩
  have h1 := congrArg List.length h
  have h2 : k = 4 := by simp [bigNum] at h1; omega
  subst h2
  have h3 := congrArg List.head? h
  revert h3; simp [bigNum]

end Casper
