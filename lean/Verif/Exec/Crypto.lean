import Verif.Model.Suites
/-
The algorithms that the providers call, for suites 1 to 3: SHA-2, HMAC, HKDF, AES-GCM, ChaCha20-Poly1305, X25519, P-256,
Ed25519, ECDSA and HPKE in base mode.  They stand for the crates of `rmls/Cargo.toml:18-46`, not for code of the repository,
and are written from the standards named at each definition.  They serve to run the model on test vectors
(`Verif.Exec.Run`); no theorem is about them.
-/
namespace Rmls.Exec

/-- A big endian number. -/
def be (b : Bytes) : Nat := b.foldl (fun a x => a * 256 + x.toNat) 0
/-- The low `n` bytes of a number, big endian. -/
def toBE (n v : Nat) : Bytes := (List.range n).map fun i => UInt8.ofNat ((v >>> (8 * (n - 1 - i))) % 256)
/-- A little endian number. -/
def le (b : Bytes) : Nat := be b.reverse
/-- The low `n` bytes of a number, little endian. -/
def toLE (n v : Nat) : Bytes := (toBE n v).reverse
/-- Bytewise exclusive or. -/
def xor (a b : Bytes) : Bytes := List.zipWith (· ^^^ ·) a b

/-! SHA-2 -/

/-- Trial division. -/
def isPrime (n : Nat) : Bool := 2 ≤ n && (List.range n).all fun d => d < 2 || n % d != 0
/-- The first 80 primes, from which the constants of SHA-2 are taken (FIPS 180-4, section 4.2). -/
def primes : List Nat := ((List.range 410).filter isPrime).take 80
/-- The largest number whose `k`-th power is at most `n`. -/
def iroot (k n : Nat) : Nat := Id.run do
  let mut r := 0
  for i in List.range 80 do
    let b := r + 2 ^ (79 - i)
    if b ^ k ≤ n then r := b
  return r

/-- FIPS 180-4, section 4.2.2. -/
def k256 : Array UInt32 := ((primes.take 64).map fun p => UInt32.ofNat (iroot 3 (p <<< 96) % 2 ^ 32)).toArray
/-- FIPS 180-4, section 5.3.3. -/
def h256 : Array UInt32 := ((primes.take 8).map fun p => UInt32.ofNat (iroot 2 (p <<< 64) % 2 ^ 32)).toArray
/-- FIPS 180-4, section 4.2.3. -/
def k512 : Array UInt64 := (primes.map fun p => UInt64.ofNat (iroot 3 (p <<< 192) % 2 ^ 64)).toArray
/-- FIPS 180-4, section 5.3.5. -/
def h512 : Array UInt64 := ((primes.take 8).map fun p => UInt64.ofNat (iroot 2 (p <<< 128) % 2 ^ 64)).toArray

/-- Rotation to the right. -/
def rot32 (x : UInt32) (n : UInt32) : UInt32 := (x >>> n) ||| (x <<< (32 - n))
/-- Rotation to the right. -/
def rot64 (x : UInt64) (n : UInt64) : UInt64 := (x >>> n) ||| (x <<< (64 - n))

/-- FIPS 180-4, section 5.1. -/
def padded (block lenBytes : Nat) (m : Bytes) : Array UInt8 :=
  let z := (block - (m.length + 1 + lenBytes) % block) % block
  (m ++ [0x80] ++ List.replicate z 0 ++ toBE lenBytes (8 * m.length)).toArray

/-- FIPS 180-4, section 6.2. -/
def sha256 (m : Bytes) : Bytes := Id.run do
  let d := padded 64 8 m
  let mut h := h256
  for blk in [0 : d.size / 64] do
    let mut w : Array UInt32 := Array.emptyWithCapacity 64
    for i in [0 : 16] do
      let o := blk * 64 + i * 4
      w := w.push ((d[o]!.toUInt32 <<< 24) ||| (d[o+1]!.toUInt32 <<< 16) ||| (d[o+2]!.toUInt32 <<< 8) ||| d[o+3]!.toUInt32)
    for i in [16 : 64] do
      let a := w[i-15]!
      let b := w[i-2]!
      let s0 := rot32 a 7 ^^^ rot32 a 18 ^^^ (a >>> 3)
      let s1 := rot32 b 17 ^^^ rot32 b 19 ^^^ (b >>> 10)
      w := w.push (w[i-16]! + s0 + w[i-7]! + s1)
    let mut v := h
    for i in [0 : 64] do
      let e := v[4]!
      let a := v[0]!
      let s1 := rot32 e 6 ^^^ rot32 e 11 ^^^ rot32 e 25
      let ch := (e &&& v[5]!) ^^^ ((~~~ e) &&& v[6]!)
      let t1 := v[7]! + s1 + ch + k256[i]! + w[i]!
      let s0 := rot32 a 2 ^^^ rot32 a 13 ^^^ rot32 a 22
      let maj := (a &&& v[1]!) ^^^ (a &&& v[2]!) ^^^ (v[1]! &&& v[2]!)
      v := #[t1 + s0 + maj, a, v[1]!, v[2]!, v[3]! + t1, e, v[5]!, v[6]!]
    h := (h.zip v).map fun (a, b) => a + b
  return h.toList.flatMap fun x => toBE 4 x.toNat

/-- FIPS 180-4, section 6.4, from given initial values. -/
def sha512With (init : Array UInt64) (m : Bytes) : Bytes := Id.run do
  let d := padded 128 16 m
  let mut h := init
  for blk in [0 : d.size / 128] do
    let mut w : Array UInt64 := Array.emptyWithCapacity 80
    for i in [0 : 16] do
      let mut x : UInt64 := 0
      for j in [0 : 8] do
        x := (x <<< 8) ||| d[blk * 128 + i * 8 + j]!.toUInt64
      w := w.push x
    for i in [16 : 80] do
      let a := w[i-15]!
      let b := w[i-2]!
      let s0 := rot64 a 1 ^^^ rot64 a 8 ^^^ (a >>> 7)
      let s1 := rot64 b 19 ^^^ rot64 b 61 ^^^ (b >>> 6)
      w := w.push (w[i-16]! + s0 + w[i-7]! + s1)
    let mut v := h
    for i in [0 : 80] do
      let e := v[4]!
      let a := v[0]!
      let s1 := rot64 e 14 ^^^ rot64 e 18 ^^^ rot64 e 41
      let ch := (e &&& v[5]!) ^^^ ((~~~ e) &&& v[6]!)
      let t1 := v[7]! + s1 + ch + k512[i]! + w[i]!
      let s0 := rot64 a 28 ^^^ rot64 a 34 ^^^ rot64 a 39
      let maj := (a &&& v[1]!) ^^^ (a &&& v[2]!) ^^^ (v[1]! &&& v[2]!)
      v := #[t1 + s0 + maj, a, v[1]!, v[2]!, v[3]! + t1, e, v[5]!, v[6]!]
    h := (h.zip v).map fun (a, b) => a + b
  return h.toList.flatMap fun x => toBE 8 x.toNat

/-- FIPS 180-4, section 5.3.4. -/
def h384 : Array UInt64 :=
  (((primes.drop 8).take 8).map fun p => UInt64.ofNat (iroot 2 (p <<< 128) % 2 ^ 64)).toArray

/-- The hash functions behind `HashScheme`. -/
def digest : HashScheme → Bytes → Bytes
  | .SHA256, m => sha256 m
  | .SHA384, m => (sha512With h384 m).take 48
  | .SHA512, m => sha512With h512 m
/-- Block sizes of the hash functions. -/
def blockSize : HashScheme → Nat
  | .SHA256 => 64
  | _ => 128

/-- RFC 2104. -/
def hmac (s : HashScheme) (key m : Bytes) : Bytes :=
  let k := if key.length > blockSize s then digest s key else key
  let k := k ++ List.replicate (blockSize s - k.length) 0
  digest s (k.map (· ^^^ 0x5c) ++ digest s (k.map (· ^^^ 0x36) ++ m))

/-- RFC 5869, section 2.3. -/
def hkdf_expand (s : HashScheme) (prk info : Bytes) (n : Nat) : Bytes := Id.run do
  let mut out : Bytes := []
  let mut t : Bytes := []
  let size := (digest s []).length
  for i in [0 : (n + size - 1) / size] do
    t := hmac s prk (t ++ info ++ [UInt8.ofNat (i + 1)])
    out := out ++ t
  return out.take n

/-! AES-128-GCM -/

/-- Product in the field of AES (FIPS 197, section 4.2). -/
def gmul (a b : Nat) : Nat := Id.run do
  let mut r := 0
  let mut a := a
  for i in [0 : 8] do
    if (b >>> i) % 2 = 1 then r := r ^^^ a
    a := a <<< 1
    if a ≥ 256 then a := a ^^^ 0x11b
  return r
/-- FIPS 197, section 5.1.1. -/
def sbox : Array UInt8 := ((List.range 256).map fun x =>
  let inv := if x = 0 then 0 else ((List.range 256).find? fun y => gmul x y = 1).getD 0
  let r := fun k => ((inv <<< k) ||| (inv >>> (8 - k))) % 256
  UInt8.ofNat (inv ^^^ r 1 ^^^ r 2 ^^^ r 3 ^^^ r 4 ^^^ 0x63)).toArray
/-- The S-box at a byte. -/
def sub (x : UInt8) : UInt8 := sbox[x.toNat]!

/-- The 44 (AES-128) or 60 (AES-256) words of the expanded key. -/
def aesKeys (key : Bytes) : Array Bytes := Id.run do
  let nk := key.length / 4
  let mut w : Array Bytes := (List.range nk).toArray.map fun i => (key.drop (4 * i)).take 4
  let mut rcon := 1
  for i in [nk : 4 * (nk + 7)] do
    let mut t := w[i-1]!
    if i % nk = 0 then
      t := ((t.drop 1 ++ t.take 1).map sub)
      t := xor t [UInt8.ofNat rcon, 0, 0, 0]
      rcon := gmul rcon 2
    else if nk > 6 && i % nk = 4 then t := t.map sub
    w := w.push (xor w[i-nk]! t)
  return w
/-- The key of a round. -/
def roundKey (w : Array Bytes) (r : Nat) : Bytes := (List.range 4).flatMap fun i => w[4 * r + i]!
/-- Doubling in the field of AES. -/
def mul2 (x : UInt8) : UInt8 := (x <<< 1) ^^^ (if x ≥ 0x80 then 0x1b else 0)
/-- FIPS 197, section 5.1. -/
def aesBlock (w : Array Bytes) (b : Bytes) : Bytes := Id.run do
  let rounds := w.size / 4 - 1
  let mut s := xor b (roundKey w 0)
  for r in [1 : rounds + 1] do
    let a := s.toArray.map sub
    let a := (List.range 16).map fun i => a[(i + 4 * (i % 4)) % 16]!
    if r = rounds then s := xor a (roundKey w r)
    else
      let a := a.toArray
      let mut o : Array UInt8 := #[]
      for c in [0 : 4] do
        for i in [0 : 4] do
          let x := fun k => a[4 * c + (i + k) % 4]!
          o := o.push (mul2 (x 0) ^^^ (mul2 (x 1) ^^^ x 1) ^^^ x 2 ^^^ x 3)
      s := xor o.toList (roundKey w r)
  return s

/-- A string in pieces of `n` bytes; the last one may be shorter. -/
def blocks (n : Nat) (m : Bytes) : List Bytes := (List.range ((m.length + n - 1) / n)).map fun i => (m.drop (n * i)).take n
/-- Zeros up to a multiple of `n` bytes. -/
def zeroPad (n : Nat) (m : Bytes) : Bytes := m ++ List.replicate ((n - m.length % n) % n) 0

/-- NIST SP 800-38D, section 6.3. -/
def ghashMul (x h : Nat) : Nat := Id.run do
  let mut z := 0
  let mut v := h
  for i in [0 : 128] do
    if (x >>> (127 - i)) % 2 = 1 then z := z ^^^ v
    v := if v % 2 = 1 then (v >>> 1) ^^^ (0xe1 <<< 120) else v >>> 1
  return z
/-- NIST SP 800-38D, section 6.4. -/
def ghash (h : Nat) (m : Bytes) : Nat := (blocks 16 m).foldl (fun y b => ghashMul (y ^^^ be b) h) 0

/-- The counter mode of GCM, with a nonce of 12 bytes. -/
def gcmCrypt (w : Array Bytes) (nonce m : Bytes) : Bytes :=
  ((blocks 16 m).zipIdx.map fun (b, i) => xor b (aesBlock w (nonce ++ toBE 4 (i + 2)))).flatten
/-- The tag of GCM. -/
def gcmTag (w : Array Bytes) (nonce ad c : Bytes) : Bytes :=
  let h := be (aesBlock w (List.replicate 16 0))
  let s := ghash h (zeroPad 16 ad ++ zeroPad 16 c ++ toBE 8 (8 * ad.length) ++ toBE 8 (8 * c.length))
  xor (toBE 16 s) (aesBlock w (nonce ++ toBE 4 1))

/-! ChaCha20-Poly1305 -/

/-- RFC 8439, section 2.1. -/
def quarter (s : Array UInt32) (a b c d : Nat) : Array UInt32 :=
  let rotl := fun (x n : UInt32) => (x <<< n) ||| (x >>> (32 - n))
  let s := s.set! a (s[a]! + s[b]!)
  let s := s.set! d (rotl (s[d]! ^^^ s[a]!) 16)
  let s := s.set! c (s[c]! + s[d]!)
  let s := s.set! b (rotl (s[b]! ^^^ s[c]!) 12)
  let s := s.set! a (s[a]! + s[b]!)
  let s := s.set! d (rotl (s[d]! ^^^ s[a]!) 8)
  let s := s.set! c (s[c]! + s[d]!)
  s.set! b (rotl (s[b]! ^^^ s[c]!) 7)
/-- RFC 8439, section 2.3. -/
def chachaBlock (key nonce : Bytes) (ctr : Nat) : Bytes := Id.run do
  let words := fun (b : Bytes) => (blocks 4 b).map fun x => UInt32.ofNat (le x)
  let init := (words (ascii "expand 32-byte k") ++ words key ++ [UInt32.ofNat ctr] ++ words nonce).toArray
  let mut s := init
  for _ in [0 : 10] do
    s := quarter s 0 4 8 12
    s := quarter s 1 5 9 13
    s := quarter s 2 6 10 14
    s := quarter s 3 7 11 15
    s := quarter s 0 5 10 15
    s := quarter s 1 6 11 12
    s := quarter s 2 7 8 13
    s := quarter s 3 4 9 14
  return ((s.zip init).toList.map fun (a, b) => toLE 4 (a + b).toNat).flatten
/-- RFC 8439, section 2.4, from block 1 on. -/
def chacha (key nonce m : Bytes) : Bytes :=
  ((blocks 64 m).zipIdx.map fun (b, i) => xor b (chachaBlock key nonce (i + 1))).flatten
/-- RFC 8439, section 2.5. -/
def poly1305 (key m : Bytes) : Bytes :=
  let r := le (key.take 16) &&& 0x0ffffffc0ffffffc0ffffffc0fffffff
  let s := le (key.drop 16)
  let a := (blocks 16 m).foldl (fun a b => (a + le b + 2 ^ (8 * b.length)) * r % (2 ^ 130 - 5)) 0
  toLE 16 ((a + s) % 2 ^ 128)
/-- The tag of RFC 8439, section 2.8. -/
def chachaTag (key nonce ad c : Bytes) : Bytes :=
  poly1305 ((chachaBlock key nonce 0).take 32)
    (zeroPad 16 ad ++ zeroPad 16 c ++ toLE 8 ad.length ++ toLE 8 c.length)

/-- Ciphertext and tag. -/
def aead_encrypt (a : Aead) (key nonce ad m : Bytes) : Option (Bytes × Bytes) :=
  match a with
  | .AEAD_ChaCha20Poly1305 =>
    let c := chacha key nonce m
    some (c, chachaTag key nonce ad c)
  | _ =>
    let w := aesKeys key
    let c := gcmCrypt w nonce m
    some (c, gcmTag w nonce ad c)
/-- The plaintext, if the tag is right. -/
def aead_decrypt (a : Aead) (key nonce ad c tag : Bytes) : Option Bytes :=
  match a with
  | .AEAD_ChaCha20Poly1305 => if chachaTag key nonce ad c = tag then some (chacha key nonce c) else none
  | _ =>
    let w := aesKeys key
    if gcmTag w nonce ad c = tag then some (gcmCrypt w nonce c) else none

/-! Curves -/

/-- Powers modulo `m`. -/
def powMod (b e m : Nat) : Nat := Id.run do
  let mut r := 1 % m
  let mut b := b % m
  let mut e := e
  for _ in [0 : 600] do
    if e = 0 then return r
    if e % 2 = 1 then r := r * b % m
    b := b * b % m
    e := e / 2
  return r
/-- Inverse modulo a prime. -/
def invMod (a p : Nat) : Nat := powMod a (p - 2) p

/-- The prime of X25519 and Ed25519. -/
def p25519 : Nat := 2 ^ 255 - 19
/-- RFC 7748, section 5. -/
def x25519 (k u : Bytes) : Bytes := Id.run do
  let p := p25519
  let k := le k
  let k := (k &&& (2 ^ 254 - 8)) ||| 2 ^ 254
  let x1 := le u % 2 ^ 255 % p
  let mut x2 := 1
  let mut z2 := 0
  let mut x3 := x1
  let mut z3 := 1
  let mut swap := 0
  for i in [0 : 255] do
    let kt := (k >>> (254 - i)) % 2
    if swap != kt then
      let (a, b, c, d) := (x3, z3, x2, z2)
      x2 := a
      z2 := b
      x3 := c
      z3 := d
    swap := kt
    let a := (x2 + z2) % p
    let aa := a * a % p
    let b := (x2 + p - z2) % p
    let bb := b * b % p
    let e := (aa + p - bb) % p
    let c := (x3 + z3) % p
    let d := (x3 + p - z3) % p
    let da := d * a % p
    let cb := c * b % p
    x3 := (da + cb) % p
    x3 := x3 * x3 % p
    z3 := (da + p - cb) % p
    z3 := x1 * (z3 * z3 % p) % p
    x2 := aa * bb % p
    z2 := e * ((aa + 121665 * e) % p) % p
  if swap = 1 then
    x2 := x3
    z2 := z3
  return toLE 32 (x2 * invMod z2 p % p)

/-- Points of Ed25519 in extended coordinates. -/
structure EdPoint where
  x : Nat
  y : Nat
  z : Nat
  t : Nat
/-- The constant `d` of RFC 8032, section 5.1. -/
def edD : Nat := (p25519 - 121665) * invMod 121666 p25519 % p25519
/-- RFC 8032, section 5.1.4. -/
def edAdd (a b : EdPoint) : EdPoint :=
  let p := p25519
  let A := (a.y + p - a.x) * (b.y + p - b.x) % p
  let B := (a.y + a.x) * (b.y + b.x) % p
  let C := 2 * a.t * b.t % p * edD % p
  let D := 2 * a.z * b.z % p
  let E := (B + p - A) % p
  let F := (D + p - C) % p
  let G := (D + C) % p
  let H := (B + A) % p
  ⟨E * F % p, G * H % p, F * G % p, E * H % p⟩
/-- Multiple of a point. -/
def edMul (k : Nat) (a : EdPoint) : EdPoint := Id.run do
  let mut r : EdPoint := ⟨0, 1, 1, 0⟩
  for i in [0 : 256] do
    r := edAdd r r
    if (k >>> (255 - i)) % 2 = 1 then r := edAdd r a
  return r
/-- RFC 8032, section 5.1.3. -/
def edX (y sign : Nat) : Option Nat :=
  let p := p25519
  if y ≥ p then none else
  let x2 := (y * y + p - 1) * invMod (edD * y * y + 1) p % p
  let x := powMod x2 ((p + 3) / 8) p
  let x := if x * x % p = x2 then x else x * powMod 2 ((p - 1) / 4) p % p
  if x * x % p ≠ x2 then none
  else if x = 0 && sign = 1 then none
  else some (if x % 2 = sign then x else p - x)
/-- The base point. -/
def edBase : EdPoint :=
  let y := 4 * invMod 5 p25519 % p25519
  let x := (edX y 0).getD 0
  ⟨x, y, 1, x * y % p25519⟩
/-- RFC 8032, section 5.1.2. -/
def edEncode (a : EdPoint) : Bytes :=
  let zi := invMod a.z p25519
  let x := a.x * zi % p25519
  let y := a.y * zi % p25519
  toLE 32 (y + (x % 2) * 2 ^ 255)
/-- RFC 8032, section 5.1.3. -/
def edDecode (b : Bytes) : Option EdPoint :=
  if b.length ≠ 32 then none else
  let n := le b
  let y := n % 2 ^ 255
  (edX y (n / 2 ^ 255)).map fun x => ⟨x, y, 1, x * y % p25519⟩
/-- The order of the base point. -/
def edL : Nat := 2 ^ 252 + 27742317777372353535851937790883648493
/-- RFC 8032, section 5.1.5. -/
def edSecret (seed : Bytes) : Nat × Bytes :=
  let h := digest .SHA512 seed
  let a := le (h.take 32)
  ((a &&& (2 ^ 254 - 8)) ||| 2 ^ 254, h.drop 32)
/-- The public key of a seed. -/
def edPublic (seed : Bytes) : Bytes := edEncode (edMul (edSecret seed).1 edBase)
/-- RFC 8032, section 5.1.6. -/
def edSign (seed m : Bytes) : Bytes :=
  let (a, prefix') := edSecret seed
  let A := edPublic seed
  let r := le (digest .SHA512 (prefix' ++ m)) % edL
  let R := edEncode (edMul r edBase)
  let k := le (digest .SHA512 (R ++ A ++ m)) % edL
  R ++ toLE 32 ((r + k * a) % edL)
/-- RFC 8032, section 5.1.7, without cofactor. -/
def edVerify (pub m sg : Bytes) : Bool :=
  if sg.length ≠ 64 then false else
  match edDecode pub, edDecode (sg.take 32) with
  | some A, some R =>
    let s := le (sg.drop 32)
    let k := le (digest .SHA512 (sg.take 32 ++ pub ++ m)) % edL
    s < edL && edEncode (edMul s edBase) == edEncode (edAdd R (edMul k A))
  | _, _ => false

/-- A curve `y² = x³ - 3x + b` over a prime field. -/
structure Weier where
  p : Nat
  b : Nat
  n : Nat
  gx : Nat
  gy : Nat
  size : Nat
/-- P-256 (FIPS 186-4, D.1.2.3). -/
def p256 : Weier where
  p := 0xffffffff00000001000000000000000000000000ffffffffffffffffffffffff
  b := 0x5ac635d8aa3a93e7b3ebbd55769886bc651d06b0cc53b0f63bce3c3e27d2604b
  n := 0xffffffff00000000ffffffffffffffffbce6faada7179e84f3b9cac2fc632551
  gx := 0x6b17d1f2e12c4247f8bce6e563a440f277037d812deb33a0f4a13945d898c296
  gy := 0x4fe342e2fe1a7f9b8ee7eb4a7c0f9e162bce33576b315ececbb6406837bf51f5
  size := 32

/-- Jacobian coordinates; `z = 0` is the point at infinity. -/
structure Jac where
  x : Nat
  y : Nat
  z : Nat
/-- Doubling of a point. -/
def dbl (c : Weier) (a : Jac) : Jac :=
  let p := c.p
  let delta := a.z * a.z % p
  let gamma := a.y * a.y % p
  let beta := a.x * gamma % p
  let alpha := 3 * ((a.x + p - delta) * (a.x + delta) % p) % p
  let x := (alpha * alpha + 8 * p - 8 * beta) % p
  let z := ((a.y + a.z) * (a.y + a.z) + 2 * p - gamma - delta) % p
  let y := (alpha * (4 * beta + p - x) + 8 * p * p - 8 * gamma * gamma) % p
  ⟨x, y, z⟩
/-- Sum of two points. -/
def addJ (c : Weier) (a b : Jac) : Jac :=
  if a.z = 0 then b else if b.z = 0 then a else
  let p := c.p
  let z1 := a.z * a.z % p
  let z2 := b.z * b.z % p
  let u1 := a.x * z2 % p
  let u2 := b.x * z1 % p
  let s1 := a.y * b.z % p * z2 % p
  let s2 := b.y * a.z % p * z1 % p
  if u1 = u2 then (if s1 = s2 then dbl c a else ⟨1, 1, 0⟩) else
  let h := (u2 + p - u1) % p
  let r := (s2 + p - s1) % p
  let h2 := h * h % p
  let h3 := h * h2 % p
  let v := u1 * h2 % p
  let x := (r * r + 3 * p - h3 - 2 * v) % p
  let y := (r * (v + p - x) + p * p - s1 * h3) % p
  ⟨x, y, h * a.z % p * b.z % p⟩
/-- Multiple of a point. -/
def mulJ (c : Weier) (k : Nat) (a : Jac) : Jac := Id.run do
  let mut r : Jac := ⟨1, 1, 0⟩
  for i in [0 : 8 * c.size] do
    r := dbl c r
    if (k >>> (8 * c.size - 1 - i)) % 2 = 1 then r := addJ c r a
  return r
/-- The coordinates of a point. -/
def affine (c : Weier) (a : Jac) : Nat × Nat :=
  let zi := invMod a.z c.p
  let z2 := zi * zi % c.p
  (a.x * z2 % c.p, a.y * z2 % c.p * zi % c.p)
/-- The base point. -/
def Weier.base (c : Weier) : Jac := ⟨c.gx, c.gy, 1⟩
/-- SEC 1, section 2.3.3, uncompressed. -/
def sec1 (c : Weier) (a : Jac) : Bytes := let (x, y) := affine c a; 4 :: (toBE c.size x ++ toBE c.size y)
/-- SEC 1, section 2.3.4, uncompressed. -/
def unsec1 (c : Weier) (b : Bytes) : Option Jac :=
  match b with
  | 4 :: r =>
    if r.length ≠ 2 * c.size then none else
    let x := be (r.take c.size)
    let y := be (r.drop c.size)
    if x < c.p ∧ y < c.p ∧ y * y % c.p = (x * x * x + (c.p - 3) * x + c.b) % c.p then some ⟨x, y, 1⟩ else none
  | _ => none

/-- A nonnegative integer in DER. -/
def derInt (n : Nat) : Bytes :=
  let b := toBE 33 n
  let b := b.dropWhile (· == 0)
  let b := if b.isEmpty || b.headD 0 ≥ 0x80 then 0 :: b else b
  2 :: UInt8.ofNat b.length :: b
/-- A signature in DER. -/
def der (r s : Nat) : Bytes := let b := derInt r ++ derInt s; 0x30 :: UInt8.ofNat b.length :: b
/-- Reads an integer in DER. -/
def underInt : Bytes → Option (Nat × Bytes)
  | 2 :: n :: r => if r.length < n.toNat then none else some (be (r.take n.toNat), r.drop n.toNat)
  | _ => none
/-- Reads a signature in DER. -/
def under : Bytes → Option (Nat × Nat)
  | 0x30 :: n :: r => do
    if r.length ≠ n.toNat then none
    let (a, r) ← underInt r
    let (b, r) ← underInt r
    if r.isEmpty then some (a, b) else none
  | _ => none

/-- FIPS 186-4, section 6.4, with SHA-256. -/
def ecdsaVerify (c : Weier) (pub m sg : Bytes) : Bool :=
  match unsec1 c pub, under sg with
  | some q, some (r, s) =>
    if r = 0 ∨ s = 0 ∨ r ≥ c.n ∨ s ≥ c.n then false else
    let e := be (sha256 m)
    let w := invMod s c.n
    let pt := addJ c (mulJ c (e * w % c.n) c.base) (mulJ c (r * w % c.n) q)
    pt.z ≠ 0 && (affine c pt).1 % c.n == r
  | _, _ => false
/-- FIPS 186-4, section 6.4, with SHA-256 and a number used once that is derived from key and message. -/
def ecdsaSign (c : Weier) (key m : Bytes) : Option Bytes :=
  let d := be key
  if d = 0 ∨ d ≥ c.n then none else
  let e := be (sha256 m)
  let k := be (sha256 (key ++ m)) % (c.n - 1) + 1
  let r := (affine c (mulJ c k c.base)).1 % c.n
  some (der r (invMod k c.n * (e + r * d) % c.n))

/-! HPKE, base mode (RFC 9180), with HKDF-SHA256 -/

/-- RFC 9180, section 7.1. -/
def kemId : Kem → Nat
  | .KEM_P256_HKDF_SHA256 => 0x10
  | _ => 0x20
/-- RFC 9180, section 4. -/
def labeledExtract (suite salt label ikm : Bytes) : Bytes := hmac .SHA256 salt (ascii "HPKE-v1" ++ suite ++ label ++ ikm)
/-- RFC 9180, section 4. -/
def labeledExpand (suite prk label info : Bytes) (n : Nat) : Bytes :=
  hkdf_expand .SHA256 prk (toBE 2 n ++ ascii "HPKE-v1" ++ suite ++ label ++ info) n
/-- RFC 9180, section 4.1. -/
def kemSuite (k : Kem) : Bytes := ascii "KEM" ++ toBE 2 (kemId k)
/-- RFC 9180, section 5.1. -/
def hpkeSuite (s : HpkeSuite) : Bytes :=
  ascii "HPKE" ++ toBE 2 (kemId s.kem) ++ toBE 2 1 ++ toBE 2 s.aead.toU16.toNat

/-- The base point of X25519. -/
def base9 : Bytes := 9 :: List.replicate 31 0
/-- RFC 9180, section 7.1.3. -/
def deriveX (ikm : Bytes) : HPKEKeyPair :=
  let prk := labeledExtract (kemSuite .KEM_X25519_HKDF_SHA256) [] (ascii "dkp_prk") ikm
  let sk := labeledExpand (kemSuite .KEM_X25519_HKDF_SHA256) prk (ascii "sk") [] 32
  { private_key := sk, public_key := x25519 sk base9 }
/-- RFC 9180, section 7.1.3. -/
def deriveP (ikm : Bytes) : HPKEKeyPair :=
  let prk := labeledExtract (kemSuite .KEM_P256_HKDF_SHA256) [] (ascii "dkp_prk") ikm
  let cand := (List.range 256).map fun c =>
    labeledExpand (kemSuite .KEM_P256_HKDF_SHA256) prk (ascii "candidate") [UInt8.ofNat c] 32
  let sk := (cand.find? fun s => be s ≠ 0 ∧ be s < p256.n).getD []
  { private_key := sk, public_key := sec1 p256 (mulJ p256 (be sk) p256.base) }
/-- DeriveKeyPair of a KEM. -/
def kemDerive : Kem → Bytes → HPKEKeyPair
  | .KEM_P256_HKDF_SHA256, ikm => deriveP ikm
  | _, ikm => deriveX ikm
/-- The Diffie-Hellman function of a KEM. -/
def dh : Kem → Bytes → Bytes → Option Bytes
  | .KEM_P256_HKDF_SHA256, sk, pk =>
    if sk.length ≠ 32 then none else (unsec1 p256 pk).map fun q => toBE 32 (affine p256 (mulJ p256 (be sk) q)).1
  | _, sk, pk => if sk.length ≠ 32 ∨ pk.length ≠ 32 then none else some (x25519 sk pk)
/-- The public key of a private key. -/
def kemPublic : Kem → Bytes → Bytes
  | .KEM_P256_HKDF_SHA256, sk => sec1 p256 (mulJ p256 (be sk) p256.base)
  | _, sk => x25519 sk base9
/-- RFC 9180, section 4.1. -/
def sharedSecret (k : Kem) (dh ctx : Bytes) : Bytes :=
  let prk := labeledExtract (kemSuite k) [] (ascii "eae_prk") dh
  labeledExpand (kemSuite k) prk (ascii "shared_secret") ctx 32
/-- RFC 9180, section 5.1, in base mode: key and nonce. -/
def hpkeKeys (s : HpkeSuite) (shared info : Bytes) : Bytes × Bytes :=
  let su := hpkeSuite s
  let ctx := 0 :: (labeledExtract su [] (ascii "psk_id_hash") [] ++ labeledExtract su [] (ascii "info_hash") info)
  let secret := labeledExtract su shared (ascii "secret") []
  (labeledExpand su secret (ascii "key") ctx (Suites.cipherKeySize s.aead), labeledExpand su secret (ascii "base_nonce") ctx 12)
/-- RFC 9180, section 6.1; the ephemeral key is derived from the randomness. -/
def hpke_seal (s : HpkeSuite) (rnd pk info plain : Bytes) : Res (Bytes × Bytes) :=
  let e := kemDerive s.kem rnd
  match dh s.kem e.private_key pk with
  | none => .err .Other
  | some d =>
    let (k, n) := hpkeKeys s (sharedSecret s.kem d (e.public_key ++ pk)) info
    match aead_encrypt s.aead k n [] plain with
    | some (c, t) => .ok (e.public_key, c ++ t)
    | none => .err .Other
/-- RFC 9180, section 6.1. -/
def hpke_open (s : HpkeSuite) (sk info enc c : Bytes) : Res Bytes :=
  match dh s.kem sk enc with
  | none => .err .Other
  | some d =>
    let (k, n) := hpkeKeys s (sharedSecret s.kem d (enc ++ kemPublic s.kem sk)) info
    if c.length < 16 then .err .Other else
    match aead_decrypt s.aead k n [] (c.take (c.length - 16)) (c.drop (c.length - 16)) with
    | some p => .ok p
    | none => .err .Other

/-- The algorithms, as the model takes them.  ECDSA over P-384 belongs to no supported suite and is left out. -/
def primitives : Primitives where
  digest := digest
  hmac := hmac
  hkdf_expand := hkdf_expand
  derive_x25519 := deriveX
  derive_p256 := deriveP
  aead_encrypt := aead_encrypt
  aead_decrypt := aead_decrypt
  leftover tag := tag
  ed25519_generate rnd := let seed := sha256 rnd; (seed, edPublic seed)
  ed25519_sign := edSign
  ed25519_verify := edVerify
  ecdsa_generate _ rnd := let d := be (sha256 rnd) % (p256.n - 1) + 1; (toBE 32 d, sec1 p256 (mulJ p256 d p256.base))
  ecdsa_sign c := match c with
    | .P256 => ecdsaSign p256
    | .P384 => fun _ _ => none
  ecdsa_verify c := match c with
    | .P256 => ecdsaVerify p256
    | .P384 => fun _ _ _ => false
  hpke_seal := hpke_seal
  hpke_open := hpke_open

end Rmls.Exec
