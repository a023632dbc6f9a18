import Mathlib.Data.List.Basic
/-
Encryption helpers: src/common/sys_cipher.c. No other file calls them. The library (OpenSSL) is an argument: what a block cipher, a key stream and an authentication
tag are is left open, and each call can fail; how the library's contexts go from one call to the next is modelled.
-/
namespace Verif.Cipher

/-- The library's algorithms under a key: `aes key block`, one byte of the key stream of GCM `ks key iv i`, the tag of a ciphertext `mac key iv c`. See
src/common/sys_cipher.c:69-75, 117. -/
structure Lib where
  aes : List UInt8 → List UInt8 → List UInt8
  ks : List UInt8 → List UInt8 → Nat → UInt8
  mac : List UInt8 → List UInt8 → List UInt8 → List UInt8

/-- `iv`, "tanxaes_deadbeef" (src/common/sys_cipher.c:3). -/
def iv : List UInt8 := [116, 97, 110, 120, 97, 101, 115, 95, 100, 101, 97, 100, 98, 101, 101, 102]

/-- `key`, "f29baf6ff9f9acb2cbf6441cd8eb29e4", of which the 32 letters are the key (src/common/sys_cipher.c:5). -/
def key : List UInt8 :=
  [102, 50, 57, 98, 97, 102, 54, 102, 102, 57, 102, 57, 97, 99, 98, 50, 99, 98, 102, 54, 52, 52, 49, 99, 100, 56, 101, 98, 50, 57, 101, 52]

/-! ### CFB with a feedback of one byte -/

/-- The byte that a register gives. See src/common/sys_cipher.c:117 (`EVP_aes_256_cfb8`). -/
def pad (L : Lib) (k r : List UInt8) : UInt8 := (L.aes k r).headD 0

/-- Encryption with the register `r`. See src/common/sys_cipher.c:120 (`EVP_EncryptUpdate`). -/
def cfbEnc (L : Lib) (k r : List UInt8) : List UInt8 → List UInt8
  | [] => []
  | p :: ps => (p ^^^ pad L k r) :: cfbEnc L k (r.drop 1 ++ [p ^^^ pad L k r]) ps

/-- Decryption with the register `r`. See src/common/sys_cipher.c:157 (`EVP_DecryptUpdate`). -/
def cfbDec (L : Lib) (k r : List UInt8) : List UInt8 → List UInt8
  | [] => []
  | c :: cs => (c ^^^ pad L k r) :: cfbDec L k (r.drop 1 ++ [c]) cs

/-- Which calls succeed: `EVP_CIPHER_CTX_new`, `EVP_…Init_ex` (not checked; without it the update fails), `EVP_…Update`, `EVP_…Final_ex`. See
src/common/sys_cipher.c:114-130, 151-167. -/
structure CfbOk where
  new : Bool
  init : Bool
  update : Bool
  final : Bool

/-- `aes_cfb_encrypt` (src/common/sys_cipher.c:103-137): what is written to `out`, and the value returned. `none`: `in` has fewer than `inlen` bytes. -/
def cfbEncrypt (L : Lib) (ok : CfbOk) (inp : List UInt8) (inlen : Int) : Option (List UInt8 × Int) :=
  if inlen < 1 then some ([], 0)
  else if inlen > inp.length then none
  else if ok.new && ok.init && ok.update then some (cfbEnc L key iv (inp.take inlen.toNat), inlen)
  else some ([], 0)

/-- `aes_cfb_decrypt` (src/common/sys_cipher.c:139-172). -/
def cfbDecrypt (L : Lib) (ok : CfbOk) (inp : List UInt8) (inlen : Int) : Option (List UInt8 × Int) :=
  if inlen < 1 then some ([], 0)
  else if inlen > inp.length then none
  else if ok.new && ok.init && ok.update then some (cfbDec L key iv (inp.take inlen.toNat), inlen)
  else some ([], 0)

/-! ### GCM -/

/-- A context: whether it encrypts, its key and IV, and whether the IV can still be used: the library takes it away with the last call of a message. See
src/common/sys_cipher.c:67-76, src/common/sys_cipher.h:16-19. -/
structure Ctx where
  enc : Bool
  key : List UInt8
  iv : List UInt8
  fresh : Bool
deriving Repr, DecidableEq

/-- Which calls of `sys_aesgcm_ctx_init` succeed: `sys_alloc`, `EVP_CIPHER_CTX_new`, the first `EVP_…Init_ex`, the control call, the second `EVP_…Init_ex`. See
src/common/sys_cipher.c:57-76. -/
structure InitOk where
  alloc : Bool
  new : Bool
  init : Bool
  len : Bool
  keys : Bool

/-- `sys_aesgcm_ctx_init` (src/common/sys_cipher.c:54-90): the context, and how many of the two blocks (the structure and the library's context) are still held. -/
def ctxInit (ok : InitOk) (typ : Int) : Option Ctx × Nat :=
  if ok.alloc then
    let got : Nat := 1 + if ok.new then 1 else 0
    if ok.new && ok.init && ok.len && ok.keys then (some ⟨typ = 0, key, iv.take 16, true⟩, got)
    else (none, got - (if ok.new then 1 else 0) - 1)
  else (none, 0)

/-- `sys_aesgcm_ctx_exit` (src/common/sys_cipher.c:92-99) on a context with the given number of blocks. -/
def ctxExit (c : Option Ctx) (held : Nat) : Nat :=
  match c with
  | some _ => held - 1 - 1
  | none => held

/-- Exclusive or with the key stream from its beginning on. See src/common/sys_cipher.c:32, 45. -/
def stream (L : Lib) (c : Ctx) (s : List UInt8) : List UInt8 := s.zipIdx.map fun x => x.1 ^^^ L.ks c.key c.iv x.2

/-- What an operation of GCM leaves: bytes written to `out`, the tag written, the value returned (-1 is an error), the context. See src/common/sys_cipher.c:26-52. -/
structure Done where
  out : List UInt8
  tag : Option (List UInt8)
  ret : Int
  ctx : Ctx
deriving Repr, DecidableEq

/-- `sys_aesgcm_enc` (src/common/sys_cipher.c:26-38) on `in` with `inn` bytes. `u`, `f`, `g`: the calls succeed as far as the library's memory is concerned. The library refuses a
context of the other kind and one whose IV was used. -/
def gcmEnc (L : Lib) (u f g : Bool) (c : Ctx) (inp : List UInt8) : Done :=
  if u && c.enc && c.fresh then
    if f then
      if g then ⟨stream L c inp, some (L.mac c.key c.iv (stream L c inp)), inp.length, { c with fresh := false }⟩
      else ⟨stream L c inp, none, -1, { c with fresh := false }⟩
    else ⟨stream L c inp, none, -1, { c with fresh := false }⟩
  else ⟨[], none, -1, c⟩

/-- `sys_aesgcm_dec` (src/common/sys_cipher.c:40-52): the plaintext is written before the tag is looked at. After a tag that does not fit the context is not used any more in
this model. -/
def gcmDec (L : Lib) (u s : Bool) (c : Ctx) (inp tag : List UInt8) : Done :=
  if u && !c.enc && c.fresh then
    if s then
      if tag.take 16 = L.mac c.key c.iv inp then ⟨stream L c inp, none, inp.length, { c with fresh := false }⟩
      else ⟨stream L c inp, none, -1, { c with fresh := false }⟩
    else ⟨stream L c inp, none, -1, { c with fresh := false }⟩
  else ⟨[], none, -1, c⟩

/-! ### Random numbers -/

/-- What `sys_genrand_16byte` finds: the device cannot be opened, and `random()` gives bytes; the read fails; the read gives some bytes. See src/common/sys_cipher.c:9-21. -/
inductive Rand where
  | noDev (b : Nat → UInt8)
  | fail
  | read (b : List UInt8)

/-- `sys_genrand_16byte` (src/common/sys_cipher.c:7-24) on a buffer with content `buf`: the value returned and the buffer. -/
def genrand (buf : List UInt8) : Rand → Int × List UInt8
  | .noDev b => (0, (List.range 16).map b ++ buf.drop 16)
  | .fail => (-1, buf)
  | .read b => (0, b.take 16 ++ buf.drop (min 16 b.length))

end Verif.Cipher
