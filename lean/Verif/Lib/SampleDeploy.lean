import Verif.Spec.Deploy
import Verif.Lib.SampleV1
/-
Concrete Deploys for examples and counterexamples.
-/
namespace Casper

/-- The public key of the samples. -/
def sampleAccount : PubKey := .secp256k1 (List.replicate 33 0xab)

/-- Arguments of a native transfer: 24500000000 motes to an account, with an identifier. -/
def sampleTransferArgs : List Arg :=
  [⟨b!"amount", bigNum 5 24500000000, .u512⟩, ⟨b!"target", List.replicate 32 0x11, .byteArray 32⟩,
   ⟨b!"id", 1 :: le 8 7, .option .u64⟩]

/-- The standard payment of 100000000 motes. -/
def samplePay : ExecItem := .moduleBytes [] [⟨b!"amount", bigNum 4 100000000, .u512⟩]

/-- A native transfer with one dependency. -/
def sampleDeploy : DeploySpec where
  account := sampleAccount
  timestamp := 1620138035000
  ttl := 3600000
  gasPrice := 1
  deps := [List.replicate 32 0x22]
  chain := b!"casper-test"
  payment := samplePay
  session := .transfer sampleTransferArgs

end Casper
