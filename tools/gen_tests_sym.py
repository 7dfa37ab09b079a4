#!/usr/bin/env python3
"""Copies the repository's own symmetric-crypto test vectors into a Lean test file."""
import re,ast
R='/repo/src/'
def lit(b): return '['+', '.join(str(x) for x in b)+']'
def bstr(s): return ast.literal_eval('b"'+re.sub(r'\\\n\s*','',s)+'"')
def arrs(s): return [bytes(int(x,0) for x in re.findall(r'0x[0-9a-f]+|\d+',m)) for m in re.findall(r'\[([^\[\]]*)\]',s)]
def tests(f): return open(R+f).read().split('mod test {')[1]
out=['import Verif.Model.AeadChaCha','import Verif.Model.Prf',
'/-! The repository\'s own test vectors for the symmetric crypto, evaluated on the model by the kernel.',
'Generated by tools/gen_tests_sym.py. These check the fidelity of the model; they are not property proofs. -/','namespace Husk.Tests','']
n=[0]
def ex(stmt):
    out.append(f'example : {stmt} := by decide +kernel\n')
t=tests('crypto/sha2.rs').split('test_sha256')[1]
bs=[bstr(x) for x in re.findall(r'b"((?:[^"\\]|\\.|\\\n)*)"',t)]
for a,b in list(zip(bs[::2],bs[1::2])): ex(f'Sha2.sha256 .debug {lit(a)} = .ok {lit(b)}')
t=tests('cipher/prf.rs')
h=t.split('test_hmac_sha256')[1].split('#[test]')[0]
bs=[bstr(x) for x in re.findall(r'b"((?:[^"\\]|\\.|\\\n)*)"',h,re.S)]
for i in range(0,len(bs),3): ex(f'Prf.hmacSha256 .debug {lit(bs[i])} {lit(bs[i+1])} = .ok {lit(bs[i+2])}')
v=arrs(t.split('test_prf_vector')[1]); v=[x for x in v if x]
ex(f'((Prf.new .debug {lit(v[0])} {lit(v[1])} >>= fun p => Prf.getBytes .debug p 100) >>= fun r => .ok r.1) = .ok {lit(v[2])}')
t=tests('crypto/poly1305.rs').split('VALUES')[1].split('= &[',1)[1].split('];')[0]
# the message lists are written &[..], the others [..]
v=[bytes(int(x,0) for x in re.findall(r'0x[0-9a-f]+',m)) for m in re.findall(r'\[([^\[\]]*)\]',t)]
for i in range(0,len(v),4): ex(f'Poly1305.authenticate .debug {lit(v[i])} {lit(v[i+1])} {lit(v[i+2])} = .ok {lit(v[i+3])}')
t=tests('crypto/chacha20.rs')
ks=[bstr(x) for x in re.findall(r'let keystream = b"((?:[^"\\]|\\.)*)"',t)]
kn=[]
k=[0]*32;nn=[0]*12
kn.append((list(k),list(nn)));k[31]=1;kn.append((list(k),list(nn)));k[31]=0;nn[11]=1;kn.append((list(k),list(nn)));nn[11]=0;nn[0]=1;kn.append((list(k),list(nn)))
kn.append((list(range(32)),list(range(12))))
for (k,nn),s in zip(kn,ks):
    ex(f'((ChaCha20.new {lit(k)} {lit(nn)} >>= fun c => ChaCha20.encrypt .debug c (List.replicate {len(s)} 0)) >>= fun r => .ok r.1) = .ok {lit(s)}')
t=tests('cipher/chacha20_poly1305.rs')
v=[x for x in arrs(t) if len(x)>8]
key,plain,nonce,aad,enc=v[:5]
ex(f'Aead.encrypt .debug {lit(key)} {lit(nonce)} {lit(plain)} {lit(aad)} = .ok {lit(enc)}')
ex(f'Aead.decrypt .debug {lit(key)} {lit(nonce)} {lit(enc)} {lit(aad)} = .ok {lit(plain)}')
out.append('end Husk.Tests')
open('/verif/lean/Verif/Tests/Symmetric.lean','w').write('\n'.join(out)+'\n')
