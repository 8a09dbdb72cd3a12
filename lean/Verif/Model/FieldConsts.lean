import Verif.Model.Limbs
/-!
# The constants of `Fp` and `Fq`
-/
namespace Halo

/-- `src/fields/fp.rs:70-168, 403-418, 453-458, 498-503`. -/
def fpConsts : Consts where
  modulus := ⟨0x99fffe7d00000001#64, 0x81be9c1a32012482#64, 0xbac2a757742b3930#64, 0x5c5e464a35c12769#64⟩
  inv := 0x99fffe7cffffffff#64
  r := ⟨0xcc000305fffffffe#64, 0xfc82c7cb9bfdb6fa#64, 0x8a7ab15117a98d9e#64, 0x4743736b947db12c#64⟩
  r2 := ⟨0xd21bca6b0eb7ce9#64, 0xc614650905b5e467#64, 0x55a4ae6f7ea066f2#64, 0x2e5132263865a7a9#64⟩
  r3 := ⟨0xac7322921fbf5412#64, 0xbc777a2173080bf6#64, 0xeb3580f5a4178af9#64, 0x4d3b7a048e8aadd0#64⟩
  rootOfUnity := ⟨0xb257e41b129e5b76#64, 0x373020854649fe24#64, 0xabfc522920f57d27#64, 0x267b428852549f85#64⟩
  sqrtExp := ⟨0x190092414cffff3e#64, 0xba159c9840df4e0d#64, 0x1ae093b4dd6153ab#64, 0x2e2f2325#64⟩
  invertExp := ⟨0x99fffe7cffffffff#64, 0x81be9c1a32012482#64, 0xbac2a757742b3930#64, 0x5c5e464a35c12769#64⟩
  rescueInvAlpha := ⟨0xf5ffff17cccccccd#64, 0x1aa590dc846715e7#64, 0x700e6467ac19ef1d#64, 0x376bc3c62040b13f#64⟩
  betaRaw := ⟨0x33fffcfa00000002#64, 0xc37d383464024905#64, 0x96d4c09e11330dde#64, 0x5c5e464a35c12768#64⟩

/-- `src/fields/fq.rs:70-168, 403-418, 453-458, 498-503`. -/
def fqConsts : Consts where
  modulus := ⟨0x19fffe7d00000001#64, 0x1b849d0f18018604#64, 0xbac2a757742b3931#64, 0x5c5e464a35c12769#64⟩
  inv := 0x19fffe7cffffffff#64
  r := ⟨0xcc000305fffffffe#64, 0xc8f6c5e1cffcf3f7#64, 0x8a7ab15117a98d9d#64, 0x4743736b947db12c#64⟩
  r2 := ⟨0x7418827fc8e3c388#64, 0x24985f46055ea406#64, 0xc634c5733d537aee#64, 0x383854eab47eb60e#64⟩
  r3 := ⟨0x2130119bf7bd2f09#64, 0xfd60bd87bbee441f#64, 0x295664a9829b9d51#64, 0x1501fb9c767aa429#64⟩
  rootOfUnity := ⟨0x19b9e2a2025f29b6#64, 0xd58c9c00bb70545a#64, 0xfd1fba57e713394e#64, 0x2f1ed67b4030702c#64⟩
  sqrtExp := ⟨0x8c00c3020cffff3e#64, 0xba159c988dc24e87#64, 0x1ae093b4dd6153ab#64, 0x2e2f2325#64⟩
  invertExp := ⟨0x19fffe7cffffffff#64, 0x1b849d0f18018604#64, 0xbac2a757742b3931#64, 0x5c5e464a35c12769#64⟩
  rescueInvAlpha := ⟨0x3d9998fecccccccd#64, 0xa49b7206099a359b#64, 0x4ab442efc8114a13#64, 0x24f282841580762a#64⟩
  betaRaw := ⟨0xc0fffc3880000002#64, 0x230cec8b8a02aa85#64, 0x28cbb3fac2af2389#64, 0x5c5e464a35c12769#64⟩

end Halo
