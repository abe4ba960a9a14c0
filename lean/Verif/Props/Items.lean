import Verif.Props.Limits
import Verif.Props.Hash
/-
C41, C42, C43, C23: which items a review has.
-/
namespace Casper
open M

/-! ### C41 -/

/-- The cursor an item request leaves behind. -/
def Res.cursor {α : Type} (s : Nat) : Res Nat α → Nat
  | .ok _ t => t
  | .err _ t => t
  | .fault _ => s

/-- Asking for items one after the other: each request starts from the cursor the previous one left. -/
def askItems (pl : Platform) (d : Dev) (r : Review) : List Nat → Nat → List (Res Unit (Bytes × Bytes))
  | [], _ => []
  | i :: is, s => (reviewItem pl d r i s).val :: askItems pl d r is ((reviewItem pl d r i s).cursor s)

theorem wasmItem_anywhere (e : Env) (d : Deploy) (i : Nat) : Anywhere (wasmItem e d i) := by
  unfold wasmItem
  refine .ite (fun _ => ?_) fun _ => .ite (fun _ => .first (indexPart_const _ _ _)) fun _ => .fail _
  intro s t
  rw [bind_run, bind_run]
  unfold slice
  split <;> rfl

theorem reviewItem_anywhere (pl : Platform) (d : Dev) (r : Review) (i : Nat) : Anywhere (reviewItem pl d r i) := by
  unfold reviewItem
  cases r with
  | tx =>
    have hp : Anywhere (parserItem d (d.env pl) (u8 i)) := by
      unfold parserItem
      exact .ite (fun _ => .ite (fun _ => getItemDeploy_anywhere _ _ _ _) fun _ => .abort _) fun _ =>
        .ite (fun _ => .ite (fun _ => getItemV1_anywhere _ _ _) fun _ => .abort _) fun _ => .fail _
    intro s t
    dsimp only
    rw [bind_run, bind_run]
    unfold parserNumItems
    split
    · split
      · simp only [pure_run, Res.bind_ok]
        split
        · rfl
        · exact hp s t
      · rfl
    · split
      · split
        · simp only [pure_run, Res.bind_ok]
          split
          · rfl
          · exact hp s t
        · rfl
      · rfl
  | message => exact .ite (fun _ => .fail _) fun _ => .pure _
  | wasm => exact .ite (fun _ => wasmItem_anywhere _ _ _) fun _ => .abort _
  | address => exact .ite (fun _ => .pure _) fun _ => .ite (fun _ => .pure _) fun _ => .fail _

/-- **C41.** Whatever is asked for, in whichever order and however often: each answer is what asking for that item alone,
right after the review opened, gives. -/
theorem C41_repeatable (pl : Platform) (d : Dev) (r : Review) (is : List Nat) (s : Nat) :
    askItems pl d r is s = is.map fun i => (reviewItem pl d r i 0).val := by
  induction is generalizing s with
  | nil => rfl
  | cons i is ih =>
    rw [askItems, ih, List.map_cons, reviewItem_anywhere pl d r i s 0]

/-- Paging forth and back over a transfer. -/
example : askItems samplePl (run samplePl (Dev.init samplePl) (sampleUpload (1 :: sampleTransfer.tx Blake.H []) 1)).1 .tx [2, 5, 2] 77 =
    [.ok (b!"Chain ID", b!"casper") (), .ok (b!"Amount", motesOf 2500000000) (), .ok (b!"Chain ID", b!"casper") ()] := by
  decide +kernel

/-! ### C42 -/

theorem getItemV1_beyond {e : Env} {v : V1} {i : Nat} (h : v.numItems ≤ i) (s : Nat) : getItemV1 e v i s = .err eNoData s := by
  unfold getItemV1; rw [if_pos h]; rfl

theorem getItemDeploy_beyond {e : Env} {epo : Nat} {d : Deploy} {i : Nat} (h : numItemsDeploy e d ≤ i) (s : Nat) :
    getItemDeploy e epo d i s = .err eNoData s := by
  unfold getItemDeploy; rw [if_pos h]; rfl

/-- **C42 (partial).** Whenever a transaction review opens it announces some number of items; all of them but those from 128
on can be shown, and none beyond.  Missing: items from 128 on (see `C42_items_false`). -/
theorem C42_items_partial (pl : Platform) (hcap : pl.cap < 65536) (d d' : Dev) (hd : d.Ok pl) (rx : Bytes) (pin : Bool)
    (hins : rx.getD 1 0 = 2) (h : step pl d (.apdu rx pin) = (d', .pending)) :
    ∃ n, ∀ s, reviewCount pl d' .tx s = .ok n s ∧
      (∀ i, i < n → i < 128 → ∃ kv c, reviewItem pl d' .tx i s = .ok kv c) ∧
      (∀ i, n ≤ i → i < 256 → ∃ c, reviewItem pl d' .tx i s = .err 1 c) := by
  obtain ⟨hok, hdata, ⟨xs, v, h1, h2, rfl⟩ | ⟨xs, v, h1, h2, rfl⟩⟩ := sign_pending hcap hd hins h
  · rw [h1] at hdata
    have hk := readDeploy_kind h2.parse
    refine ⟨numItemsDeploy (mkEnv pl (d.loaded rx).expert xs) v.dep, fun s => ⟨reviewCount_deploy hok hdata v hk s, fun i hi h128 => ?_, fun i hi h256 => ?_⟩⟩
    · rw [reviewItem_deploy hok hdata v hk, u8_id (by omega), if_neg (by omega)]
      obtain ⟨kv, t, hg⟩ := h2.items i hi
      have := getItemDeploy_anywhere (mkEnv pl d.expert xs) v.epo v.dep i s 0
      rw [hg] at this
      exact ⟨kv, Res.val_ok.1 this⟩
    · rw [reviewItem_deploy hok hdata v hk, u8_id h256]
      split
      · exact ⟨s, rfl⟩
      · exact ⟨s, getItemDeploy_beyond hi s⟩
  · rw [h1] at hdata
    refine ⟨v.v.numItems, fun s => ⟨reviewCount_v1 v s, fun i hi h128 => ?_, fun i hi h256 => ?_⟩⟩
    · rw [reviewItem_v1 hok hdata, u8_id (by omega), if_neg (by omega)]
      obtain ⟨kv, t, hg⟩ := h2.items i hi
      have := getItemV1_anywhere (mkEnv pl d.expert xs) v.v i s 0
      rw [hg] at this
      exact ⟨kv, Res.val_ok.1 this⟩
    · rw [reviewItem_v1 hok hdata, u8_id h256]
      split
      · exact ⟨s, rfl⟩
      · exact ⟨s, getItemV1_beyond hi s⟩

example : (run samplePl (Dev.init samplePl) (sampleUpload (1 :: sampleTransfer.tx Blake.H []) 1)).2 =
    [.reply [] 0x9000, .reply [] 0x9000, .pending] := by decide +kernel

/-! ### Withdrawals with many arguments -/

def withdrawArgs (n : Nat) : List Arg :=
  [⟨b!"public_key", 1 :: List.replicate 32 0x22, .publicKey⟩, ⟨b!"amount", bigNum 4 2500000000, .u512⟩] ++
      List.replicate n ⟨[], [], .unit⟩

theorem withdrawArgs_mem {n : Nat} {a : Arg} (h : a ∈ withdrawArgs n) :
    a = ⟨b!"public_key", 1 :: List.replicate 32 0x22, .publicKey⟩ ∨ a = ⟨b!"amount", bigNum 4 2500000000, .u512⟩ ∨
    a = ⟨[], [], .unit⟩ := by
  simp only [withdrawArgs, List.mem_append, List.mem_cons, List.not_mem_nil, or_false, List.mem_replicate] at h
  rcases h with (h | h) | h
  · exact .inl h
  · exact .inr (.inl h)
  · exact .inr (.inr h.2)

theorem sampleWithdraw_ok (n : Nat) : (sampleWithdraw n).Ok :=
  { sampleTransfer_ok with
    args := by
      show ∀ a ∈ withdrawArgs n, a.Ok
      intro a ha
      rcases withdrawArgs_mem ha with rfl | rfl | rfl <;> exact ⟨by decide, by decide, by decide⟩
    entry := ⟨by decide, by decide⟩ }

theorem withdraw_noNul (n : Nat) : noNul (withdrawArgs n) := by
  intro a ha
  rcases withdrawArgs_mem ha with rfl | rfl | rfl <;> decide

theorem withdraw_length (n : Nat) : (withdrawArgs n).length = n + 2 := by simp [withdrawArgs]

/-- The arguments of the withdrawal, as shown. -/
theorem withdraw_shows (expert : Bool) (n : Nat) :
    List.Forall₂ (ArgLine.Shows Blake.H (withdrawArgs n)) (opLines expert (withdrawArgs n) 4)
      [(b!"Pk", b!"01" ++ checksumHex Blake.H (List.replicate 32 0x22)), (b!"Amount", motesOf 2500000000)] :=
  .cons (.value rfl rfl (.ed25519 _ rfl)) (.cons (.motes rfl rfl rfl (.u512 4 2500000000 (by decide) (by decide))) .nil)

theorem withdraw_native (n : Nat) (hn : n ≤ 244) : (sampleWithdraw n).NativeOp 4 (withdrawArgs n) where
  ok := sampleWithdraw_ok n
  entry := rfl
  known := by decide
  target := rfl
  args := rfl
  names := withdraw_noNul n
  few := by rw [withdraw_length]; omega
  slots := by simp
  id := by simp
  pos := by show sampleTransfer.argsPos < 256; decide
  chain := by show sampleTransfer.chain.length ≤ 99; decide
  chain0 := by show 0 ∉ sampleTransfer.chain; decide

/-- **C42: false.** A withdrawal of a bid with 127 arguments is accepted, announces 131 items, and items 128 to 130 cannot
be shown. -/
theorem C42_items_false : ∃ d, (sampleWithdraw 125).Ok ∧
    run samplePl (Dev.init samplePl) (upload 2 (samplePath 0) [] (1 :: (sampleWithdraw 125).tx Blake.H [])) =
      (d, [.reply [] 0x9000, .pending]) ∧
    (∀ s, reviewCount samplePl d .tx s = .ok 131 s) ∧
    ∀ i, 128 ≤ i → i < 131 → ∀ s, ∃ c, reviewItem samplePl d .tx i s = .err 1 c := by
  have hlen : (sampleWithdraw 125).encode.length + 63 ≤ 8192 := by decide +kernel
  have hs : Small (mkEnv samplePl false ((sampleWithdraw 125).tx Blake.H [])) := by
    unfold Small mkEnv
    dsimp only
    rw [tx_length _ _ (Blake.H.len _)]
    omega
  obtain ⟨s, ttl, hacc, hsv, -, hnum, -⟩ := nativeOp_accepted (ap := []) (time := []) hs (withdraw_native 125 (by decide)) (by simp) rfl
    (withdraw_shows false 125) (by intro h; cases h)
  obtain ⟨d0, h1, h3, h2, h4, -⟩ := upload_accepted samplePl (by decide) (Dev.init samplePl) (.init _) (samplePath 0) rfl (by decide)
    (sampleWithdraw 125) [] [] (1 :: (sampleWithdraw 125).tx Blake.H []) rfl (by
      show (1 :: (sampleWithdraw 125).tx Blake.H []).length ≤ 8192
      rw [List.length_cons, tx_length _ _ (Blake.H.len _)]; omega) hacc hsv
  refine ⟨_, sampleWithdraw_ok 125, h4, fun t => ?_, fun i hi hi' t => ?_⟩
  · rw [reviewCount_v1, hsv]
    refine congrArg (Res.ok · t) ?_
    rw [result_items, opCount_native (t := 4) (as := withdrawArgs 125) (by decide) rfl rfl rfl, withdraw_length]
    rfl
  · rw [reviewItem_v1 h1 h3, u8_id (by omega), if_pos (.inl hi)]
    exact ⟨t, rfl⟩

/-- **C23, C43: false.** A withdrawal of a bid with 252 arguments is accepted; its review has no items at all, neither hash
nor amount, and approving it gives a signature. -/
theorem nothing_shown : ∃ d, (sampleWithdraw 250).Ok ∧ (sampleWithdraw 250).args = .named (withdrawArgs 250) ∧
    (withdrawArgs 250).length = 252 ∧
    run samplePl (Dev.init samplePl) (upload 2 (samplePath 0) [] (1 :: (sampleWithdraw 250).tx Blake.H [])) =
      (d, [.reply [] 0x9000, .pending]) ∧
    (∀ s, reviewCount samplePl d .tx s = .ok 0 s) ∧
    (∀ i, i < 256 → ∀ s, ∃ c, reviewItem samplePl d .tx i s = .err 1 c) ∧
    (step samplePl d .approve).2 =
      signatureReply samplePl (samplePath 0) (samplePl.sha256 (Blake.H (sampleWithdraw 250).encode)) := by
  have hH : (Blake.H (sampleWithdraw 250).encode).length = 32 := Blake.H.len _
  have hlen : (sampleWithdraw 250).encode.length + 63 ≤ 8192 := by decide +kernel
  have hs : Small (mkEnv samplePl false ((sampleWithdraw 250).tx Blake.H [])) := by
    unfold Small mkEnv
    dsimp only
    rw [tx_length _ _ hH]
    omega
  have hni : ((sampleWithdraw 250).result Blake.H [] (mkEnv samplePl false ((sampleWithdraw 250).tx Blake.H []))).numItems = 0 := by
    rw [result_items, opCount_native (t := 4) (as := withdrawArgs 250) (by decide) rfl rfl rfl, withdraw_length]; rfl
  obtain ⟨v, hacc, hv⟩ := accepted_empty (e := mkEnv samplePl false ((sampleWithdraw 250).tx Blake.H [])) (p := sampleWithdraw 250) (ap := [])
    hs (sampleWithdraw_ok 250) (by simp) rfl (native_sane hs (sampleWithdraw_ok 250) rfl (t := 4) (as := withdrawArgs 250) rfl
      (by decide) rfl rfl (withdraw_noNul 250) (by show sampleTransfer.argsPos < 256; decide) (by
        intro r hr
        simp only [opRequired, List.mem_cons, List.not_mem_nil, or_false] at hr
        rcases hr with rfl | rfl
        · exact ⟨_, rfl, by simp⟩
        · exact ⟨_, rfl, fun _ => rfl⟩)) hni
  obtain ⟨d0, h1, h3, h2, h4, h5⟩ := upload_accepted samplePl (by decide) (Dev.init samplePl) (.init _) (samplePath 0) rfl (by decide)
    (sampleWithdraw 250) [] [] (1 :: (sampleWithdraw 250).tx Blake.H []) rfl (by
      show (1 :: (sampleWithdraw 250).tx Blake.H []).length ≤ 8192
      rw [List.length_cons, tx_length _ _ hH]; omega) hacc hv
  refine ⟨_, sampleWithdraw_ok 250, rfl, withdraw_length 250, h4, fun t => ?_, fun i hi t => ?_, h5⟩
  · rw [reviewCount_v1, hv]
    exact congrArg (Res.ok · t) hni
  · rw [reviewItem_v1 h1 h3, u8_id hi]
    split
    · exact ⟨t, rfl⟩
    · exact ⟨t, getItemV1_beyond (Nat.le_trans (Nat.le_of_eq ((congrArg V1.numItems hv).trans hni)) (Nat.zero_le i)) t⟩

/-- **C23: false.** The hash that is signed need not have been shown. -/
theorem C23_nothing_shown_false : ∃ d, (sampleWithdraw 250).Ok ∧
    run samplePl (Dev.init samplePl) (upload 2 (samplePath 0) [] (1 :: (sampleWithdraw 250).tx Blake.H [])) =
      (d, [.reply [] 0x9000, .pending]) ∧
    (∀ i, i < 256 → ∀ s, ∃ c, reviewItem samplePl d .tx i s = .err 1 c) ∧
    (step samplePl d .approve).2 =
      signatureReply samplePl (samplePath 0) (samplePl.sha256 (Blake.H (sampleWithdraw 250).encode)) := by
  obtain ⟨d, h1, -, -, h2, -, h3, h4⟩ := nothing_shown
  exact ⟨d, h1, h2, h3, h4⟩

/-! ### C43 -/

/-- **C43: false.** An accepted native operation with 252 arguments, none of which (nor anything else) is shown. -/
theorem C43_arguments_false : ∃ (p : TxPayload) (as : List Arg) (d : Dev), p.Ok ∧ p.entry = .op 4 ∧ p.target = .native ∧
    p.args = .named as ∧ as.length = 252 ∧
    run samplePl (Dev.init samplePl) (upload 2 (samplePath 0) [] (1 :: p.tx Blake.H [])) = (d, [.reply [] 0x9000, .pending]) ∧
    ∀ s, reviewCount samplePl d .tx s = .ok 0 s := by
  obtain ⟨d, h1, h2, h3, h4, h5, -, -⟩ := nothing_shown
  exact ⟨_, _, d, h1, rfl, rfl, h2, h3, h4, h5⟩

/-- **C43 (partial), number of items.** In every review of a well-formed native operation the number of items is 4 (9 in expert mode) and the
operation's number of lines, when this fits in 8 bits. -/
theorem C43_count_partial (pl : Platform) (hcap : pl.cap ≤ 16384) (d d' : Dev) (hd : d.Ok pl) (rx : Bytes)
    (pin : Bool) (hins : rx.getD 1 0 = 2) (p : TxPayload) (hp : p.Ok) (t : Nat) (ht : 2 ≤ t) (as : List Arg)
    (he : p.entry = .op t) (htg : p.target = .native) (ha : p.args = .named as) (ap : List Bytes) (hap : ∀ x ∈ ap, ApprovalOk x)
    (hx : d.data ++ rx.drop 5 = 1 :: p.tx pl.blake ap) (h : step pl d (.apdu rx pin) = (d', .pending))
    (hfew : (if d.expert then 9 else 4) + opLineCount d.expert t as.length < 256) (s : Nat) :
    reviewCount pl d' .tx s = .ok ((if d.expert then 9 else 4) + opLineCount d.expert t as.length) s := by
  obtain ⟨v, -, hs, hok, hdata, rfl, hv, -⟩ := pending_tx hcap hd hins hp hap hx h
  rw [reviewCount_v1, hv, result_items]
  rw [opCount_native ht he htg ha]
  exact congrArg (Res.ok · s) (u8_id hfew)

/-- **C43 (partial), required arguments.** In every review of a well-formed native operation whose arguments are serialized
before offset 256, each of the operation's required arguments is the subject of a line (the id of a transfer: in expert
mode). -/
theorem C43_required_partial (pl : Platform) (hcap : pl.cap ≤ 16384) (d d' : Dev) (hd : d.Ok pl) (rx : Bytes)
    (pin : Bool) (hins : rx.getD 1 0 = 2) (p : TxPayload) (t : Nat) (as : List Arg) (hp : p.NativeOp t as)
    (hfew : as.length ≤ 119) (ap : List Bytes) (hap : ∀ x ∈ ap, ApprovalOk x)
    (hx : d.data ++ rx.drop 5 = 1 :: p.tx pl.blake ap) (h : step pl d (.apdu rx pin) = (d', .pending))
    (lines : List (Bytes × Bytes)) (hl : List.Forall₂ (ArgLine.Shows pl.blake as) (opLines d.expert as t) lines)
    (time : Bytes) (hxp : d.expert = true → p.ExpertOk pl.fmtTime time) (name : Bytes) (big : Bool)
    (hr : (name, big) ∈ opRequired t) (hid : ¬ (t = 2 ∧ d.expert = false ∧ name = b!"id")) (s : Nat) :
    ∃ i l kv c, l.name = name ∧ ArgLine.Shows pl.blake as l kv ∧ reviewItem pl d' .tx i s = .ok kv c := by
  have hkn := hp.known
  rw [← requiredArgs_eq t (by simp at hkn; omega)] at hr
  have ⟨l, hl1, hl2⟩ : ∃ l ∈ opLines d.expert as t, l.name = name := by
    rcases required_shown (ex := d.expert) (as := as) hp.known hr with ⟨h2, h3⟩ | ⟨l, h1, h2, -⟩
    · cases h3
      cases hxx : d.expert with
      | false => exact absurd ⟨h2, hxx, rfl⟩ hid
      | true => exact ⟨⟨b!"ID", b!"id", false⟩, by subst h2; simp [opLines], rfl⟩
    · exact ⟨l, h1, h2⟩
  have : ∃ (i : Nat) (kv : Bytes × Bytes), lines[i]? = some kv ∧ ArgLine.Shows pl.blake as l kv := by
    clear hr hid h hx
    generalize opLines d.expert as t = ls at hl hl1
    induction hl with
    | nil => cases hl1
    | cons h1 _ ih =>
      rcases List.mem_cons.1 hl1 with rfl | hl1
      · exact ⟨0, _, rfl, h1⟩
      · obtain ⟨i, kv, h2, h3⟩ := ih hl1
        exact ⟨i + 1, kv, h2, h3⟩
  obtain ⟨i, kv, h2, h3⟩ := this
  obtain ⟨c, hc⟩ := C44_signed_arguments_partial pl hcap d d' hd rx pin hins p t as hp hfew ap hap hx h lines hl time hxp i kv h2 s
  exact ⟨_, l, kv, c, hl2, h3, hc⟩

/-- A withdrawal meets the hypotheses of both. -/
example : (sampleWithdraw 1).NativeOp 4 (withdrawArgs 1) ∧
    List.Forall₂ (ArgLine.Shows Blake.H (withdrawArgs 1)) (opLines false (withdrawArgs 1) 4)
      [(b!"Pk", b!"01" ++ checksumHex Blake.H (List.replicate 32 0x22)), (b!"Amount", motesOf 2500000000)] ∧
    (run samplePl (Dev.init samplePl) (sampleUpload (1 :: (sampleWithdraw 1).tx Blake.H []) 1)).2 =
      [.reply [] 0x9000, .reply [] 0x9000, .pending] :=
  ⟨withdraw_native 1 (by decide), withdraw_shows false 1, by decide +kernel⟩

end Casper
