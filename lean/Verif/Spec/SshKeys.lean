import Verif.Model.Pem
/-!
# The key files that ssh-keygen writes

The formats of `id_ed25519` (PROTOCOL.key of OpenSSH) and `id_ed25519.pub` (RFC 4253, RFC 8709), as far as the quick start
of README.md needs them; nothing of the package.
-/
namespace Verif.SshKeys
open Verif.Identity

def be32 (n : Nat) : Bytes :=
  [BitVec.ofNat 8 (n / 16777216), BitVec.ofNat 8 (n / 65536), BitVec.ofNat 8 (n / 256), BitVec.ofNat 8 n]

/-- A string with its length. -/
def str (b : Bytes) : Bytes := be32 b.length ++ b

def ed25519Name : Bytes := ascii ['s','s','h','-','e','d','2','5','5','1','9']

/-- The public key. -/
def pubBlob (pk : Bytes) : Bytes := str ed25519Name ++ str pk

/-- `id_ed25519.pub`. -/
def pubFile (pk comment : Bytes) : Bytes := ed25519Name ++ [32] ++ base64 (pubBlob pk) ++ [32] ++ comment ++ [10]

def magic : Bytes := ascii ['o','p','e','n','s','s','h','-','k','e','y','-','v','1'] ++ [0]

/-- The contents of the PEM block in `id_ed25519`: names of the cipher and of the key derivation, its options, one key, the
public key, and the encrypted or plain private part. -/
def privBlob (cipher kdf kdfOptions pk priv : Bytes) : Bytes :=
  magic ++ str cipher ++ str kdf ++ str kdfOptions ++ be32 1 ++ str (pubBlob pk) ++ str priv

def pemBegin : Bytes := dashes ++ ascii ['B','E','G','I','N']

/-- A PEM block begins at the beginning of a line (RFC 7468). -/
def HasBlock (text : Bytes) : Prop := pemBegin <+: text ∨ (10 :: pemBegin) <:+: text

end Verif.SshKeys
