import Verif.Spec.Sha256
/-!
# The specification of SHA-256 agrees with published values
-/
namespace Halo
namespace Fips180
set_option maxRecDepth 100000

theorem hash_empty : number (hash []) =
    0xe3b0c44298fc1c149afbf4c8996fb92427ae41e4649b934ca495991b7852b855 := by decide +kernel

theorem hash_abc : number (hash ([0x61, 0x62, 0x63].flatMap fun b : BitVec 8 => bits b)) =
    0xba7816bf8f01cfea414140de5dae2223b00361a396177a9cb410ff61f20015ad := by decide +kernel

end Fips180
end Halo
