import random, hashlib, math, subprocess, base64, sys
class P(Exception): pass
class Err(Exception): pass
def trimz(b):
    while b and b[-1]==0: b.pop()
    return b
def ilog2(x):
    if x==0: raise P
    return x.bit_length()-1
def u32(x):
    if not 0<=x<2**32: raise P
    return x
def frombe(b):
    for i,x in enumerate(b):
        if x!=0: return list(reversed(b[i:]))
    return []
def fromle(b): return trimz(list(b))
def bits(b):
    if not b: return 0
    return u32(u32((len(b)-1)*8)+ilog2(b[-1])+1)
def isset(b,i):
    if i>=bits(b): return False
    if i//8>=len(b): return False
    return (b[i//8]>>(i%8))&1!=0
def upd(b,i,s):
    b=list(b)
    if not b or i//8>=len(b): raise P
    if s: b[i//8]|=1<<(i%8)
    else: b[i//8]&=~(1<<(i%8))&255
    return b
def add8(b,r):
    b=list(b)+[0]; c=r
    for i in range(len(b)):
        if c==0: break
        s=c+b[i]
        b[i]=s&255; c=(s>>8)&255
    return trimz(b)
def add(l,r):
    l=list(l)
    while len(r)>len(l): l.append(0)
    l.append(0); c=0
    for i in range(len(l)-1):
        s=c+l[i]+(r[i] if i<len(r) else 0)
        assert s<65536
        l[i]=s&255; c=(s>>8)&255
    l[-1]=c&255
    return trimz(l)
def cmp(a,b):
    x,y=bits(a),bits(b)
    if x!=y: return -1 if x<y else 1
    for i in reversed(range(x)):
        p,q=isset(a,i),isset(b,i)
        if p and not q: return 1
        if not p and q: return -1
    return 0
def sub(a,b):
    cur=bits(a)
    cap=len(a)+1
    off=cap-len(b)
    if off<0: raise P
    inv=[255-x for x in b]+[255]*off
    inv=trimz(inv)
    a=add8(a,1); a=add(a,inv)
    for i in range(cur,bits(a)): a=upd(a,i,False)
    return trimz(a)
def shl(b,r):
    b=list(b); st=r//8; r-=st*8
    if r>0:
        b.append(0); c=0
        for i in range(len(b)):
            res=c|(b[i]<<r&255); c=b[i]>>(8-r); b[i]=res
        trimz(b)
    return [0]*st+b
def shr(b,r):
    b=list(b)
    if r>=8:
        st=r//8
        if st>len(b): raise P
        b=b[st:]; r-=st*8
    if r>0:
        c=0
        for i in reversed(range(len(b))):
            res=c|b[i]>>r; c=b[i]<<(8-r)&255; b[i]=res
        trimz(b)
    return b
def rem(a,b):
    if bits(b)>bits(a): return a
    d=bits(a)-bits(b)
    m=shl(b,d)
    for _ in range(d+1):
        if cmp(m,a)<=0: a=sub(a,m)
        m=shr(m,1)
    return a
def u128(b):
    if len(b)>16: raise Err('expected at most 16 bytes, but got %d'%len(b))
    return int.from_bytes(bytes(b),'little')
def tob(v): return trimz(list(v.to_bytes(16,'little')))
def mulmod(a,b,m):
    r=[]
    while bits(b)!=0:
        if isset(b,0): r=add(r,a); r=rem(r,m)
        a=shl(a,1); a=rem(a,m); b=shr(b,1)
    return r
def powmod(a,p,m):
    r=[1]
    for i in range(bits(p)):
        if isset(p,i): r=mulmod(r,a,m)
        a=mulmod(a,a,m)
    return r
REL=[False]  # release profile: overflow wraps around
def c128(x):
    if REL[0]: return x%2**128
    if not 0<=x<2**128: raise P
    return x
def ci(x):
    if REL[0]: return asi(x%2**128)
    if not -2**127<=x<2**127: raise P
    return x
def asi(x): return x if x<2**127 else x-2**128
def inverse(a,n):
    r,nr=n,a; t,nt=0,1
    while nr!=0:
        q=r//nr
        r,nr=nr,c128(r-c128(q*nr))
        t,nt=nt,ci(t-ci(asi(q)*nt))
    if r!=1: return None
    if t<0: t=ci(t+asi(n))
    return t%2**128
def keys(p,q,e):
    try: p,q,e=u128(p),u128(q),u128(e)
    except Err: raise P
    n=c128(p*q)
    p=c128(p-1); q=c128(q-1)
    x=c128(p*q); g=math.gcd(p,q)
    if g==0: raise P
    d=inverse(e,x//g)
    if d is None: raise P
    return tob(n),tob(d),tob(n),tob(e)
def asn(b):
    if len(b)<=1: raise Err('tag had no length')
    tag=b[0]
    if b[1]&0x80:
        k=b[1]&0x7f
        if k>16: raise P
        if 2+k>len(b): raise P
        ln=int.from_bytes(b[2:2+k],'big')%2**64
        rest=b[2+k:]
    else: rest=b[2:]; ln=b[1]
    if ln>len(rest): raise Err('tag (%d) had too little data, expected %d bytes, got %d'%(tag,ln,len(rest)))
    if tag==2: a='I'+rest[:ln].hex()
    elif tag==4: a='O'+rest[:ln].hex()
    elif tag==3:
        if ln<1: raise P
        a='B'+rest[1:ln].hex()+'/'+str(rest[0])
    elif tag==5: a='N'
    elif tag==6: a='D'+rest[:ln].hex()
    elif tag==0x30:
        left=rest[:ln]; els=[]
        while left:
            try: x,left=asn(left)
            except Err as e: raise Err('failed to parse sequence: '+str(e))
            els.append(x)
        a=els
    else: raise Err('unknown tag: %d'%tag)
    return a,rest[ln:]
def asn1(b):
    a,l=asn(b)
    if l: raise Err('extra bytes at the end')
    return a
def pa(a): return a if isinstance(a,str) else '['+','.join(map(pa,a))+']'
RSA=bytes([42,134,72,134,247,13,1,1,1]).hex()

def dbg(a):
    bs=lambda h:'['+', '.join(str(x) for x in bytes.fromhex(h))+']'
    if not isinstance(a,str): return 'Sequence(['+', '.join(map(dbg,a))+'])'
    if a[0]=='I': return 'Integer('+bs(a[1:])+')'
    if a[0]=='O': return 'OctetString('+bs(a[1:])+')'
    if a[0]=='D': return 'ObjectIdentifier('+bs(a[1:])+')'
    if a[0]=='N': return 'Null'
    h,u=a[1:].split('/'); return 'BitString('+bs(h)+', '+u+')'
def seq(a):
    if isinstance(a,str): raise Err('expected content to be wrapped in a sequence tag, but found tag '+dbg(a))
    return a
def algo(a,msg):
    if isinstance(a,str): raise Err('expected sequence')
    if not(len(a)==2 and isinstance(a[0],str) and a[0][0]=='D' and a[1]=='N'): raise Err('expected object identifier')
    if a[0][1:]!=RSA: raise Err(msg)
def ints(a,n):
    seq(a)
    if len(a)!=n: raise Err('expected %d elements'%n)
    if not all(isinstance(x,str) and x[0]=='I' for x in a): raise Err('expected integers')
    return [bytes.fromhex(x[1:]) for x in a]
def wrap(pre,f):
    try: return f()
    except Err as e: raise Err(pre+str(e))
def priv(d):
    a=seq(asn1(d))
    if len(a)!=3: raise Err('expected three elements')
    if a[0]!='I00': raise Err('expected first element to be be zero')
    algo(a[1],'expected private key algorithm to be RSA')
    if not(isinstance(a[2],str) and a[2][0]=='O'): raise Err('expected third element to be an octet string')
    t=wrap('failed to parse ASN.1: ',lambda:asn1(bytes.fromhex(a[2][1:])))
    def g():
        v=ints(t,9)
        if len(v[0])!=1: raise Err('version field must be one byte')
        return v
    v=wrap('failed to extract private key from ASN.1: ',g)
    return frombe(v[1]),frombe(v[3])
def pub(d):
    a=seq(asn1(d))
    if len(a)!=2: raise Err('expected two elements')
    algo(a[0],'expected algorithm to be RSA')
    if not(isinstance(a[1],str) and a[1][0]=='B'): raise Err('expected second element to be a bit string')
    h,u=a[1][1:].split('/')
    if u!='0': raise Err('bit string had unused bits which is not supported yet')
    t=wrap('failed to parse subject public key: ',lambda:asn1(bytes.fromhex(h)))
    v=wrap('failed to convert ASN.1 into public key: ',lambda:ints(t,2))
    return frombe(v[0]),frombe(v[1])
WS=set('\t\n\x0b\x0c\r \x85\xa0                　')
def trim(s):
    while s and s[0] in WS: s=s[1:]
    while s and s[-1] in WS: s=s[:-1]
    return s
def lines(s):
    if s=='': return []
    ls=s.split('\n')
    if ls[-1]=='': ls.pop()
    # Rust: only strips \r that precedes \n; final line without \n keeps a lone \r
    out=[]
    n=len(ls); ended=s.endswith('\n')
    for i,l in enumerate(ls):
        if (i<n-1 or ended) and l.endswith('\r'): l=l[:-1]
        out.append(l)
    return out
AL='ABCDEFGHIJKLMNOPQRSTUVWXYZabcdefghijklmnopqrstuvwxyz0123456789+/'
def b64(s):
    # strict: canonical padding, trailing bits zero
    if len(s)%4: raise Err
    core=s.rstrip('='); pad=len(s)-len(core)
    if pad>2: raise Err
    if any(c not in AL for c in core): raise Err
    d=base64.b64decode(s)
    if base64.b64encode(d).decode()!=s: raise Err
    return d
def pem(s):
    bl=el=None; dl=[]
    for l in lines(s):
        l=trim(l)
        if l.startswith('-----BEGIN '):
            l=l[11:]
            if bl is not None: raise Err('multiple BEGIN lines')
            if l.endswith('-----'): bl=l[:-5]
            else: raise Err('invalid BEGIN line')
        elif l.startswith('-----END '):
            l=l[9:]
            if bl is None: raise Err('found END line before the BEGIN line')
            if el is not None: raise Err('multiple END lines')
            if l.endswith('-----'): el=l[:-5]
            else: raise Err('invalid END line')
        elif bl is not None and el is None: dl.append(l)
    if bl is None: raise Err('BEGIN line is missing')
    if el is None: raise Err('END line is missing')
    if bl!=el: raise Err('label mismatch')
    return bl,b64(''.join(dl))
def show(l,d):
    b=base64.b64encode(d).decode()
    out='-----BEGIN %s-----\n'%l; line=''
    for i,c in enumerate(b):
        if i%64==0 and i!=0: out+=line+'\n'; line=''
        line+=c
    return out+line+'\n'+'-----END %s-----'%l
H=lambda b: hashlib.sha256(b).digest()
def mgf(seed,n):
    o=b'';c=0
    while len(o)<n: o+=H(seed+c.to_bytes(4,'big')); c+=1
    return o[:n]
def xs(a,b):
    if len(a)!=len(b): raise P
    return bytes(x^y for x,y in zip(a,b))
def oenc(l,m,n):
    N=32
    if n<len(m)+2*N+2: raise P
    db=H(l)+bytes(n-len(m)-2*N-2)+b'\x01'+m
    seed=bytes([42]*N)
    md=xs(db,mgf(seed,n-N-1)); ms=xs(seed,mgf(md,N))
    return b'\0'+ms+md
def odec(l,e,n):
    N=32
    if len(e)<1: raise P
    if e[0]!=0: raise Err('first byte is not 0')
    if len(e)<N+1: raise P
    ms,md=e[1:N+1],e[N+1:]
    seed=xs(ms,mgf(md,N))
    if n<N+1: raise P
    db=xs(md,mgf(seed,n-N-1))
    if len(db)<N: raise P
    if db[:N]!=H(l): raise Err('wrong label')
    r=db[N:]
    for i,x in enumerate(r):
        if x!=0: break
    else: raise Err('missing 1-byte before message')
    if r[i]!=1: raise Err('separator is not a 1-byte')
    return r[i+1:]
def rsaenc(e,n,m):
    b=bits(n)
    if b<1: raise P
    x=frombe(oenc(b'',m,(b-1)//8+1))
    if cmp(x,n)>=0: raise P
    return bytes(reversed(powmod(x,e,n)))
def rsadec(e,n,c):
    d=bytes(reversed(powmod(frombe(c),e,n)))
    if len(d)>len(c): raise P
    m=bytes(len(c)-len(d))+d
    try: return odec(b'',m,len(m))
    except Err: raise P
# ciphers
src=open('/repo/src/rc/rc2.rs').read()
import re
PI=bytes.fromhex(''.join(re.findall(r'0x_([0-9a-f]{32})_u128',src)))
def rc2key(k,n):
    if len(k)>128: raise P
    l=list(k)+[0]*(128-len(k)); t=len(k); t8=(n+7)//8
    tm=0xff>>((-n)&7)
    for i in range(t,128):
        if i<1 or i-t>=128: raise P
        l[i]=PI[(l[i-1]+l[i-t])&255]
    if t8>128: raise P
    if 128-t8>=128: raise P
    l[128-t8]=PI[l[128-t8]&tm]
    for i in reversed(range(128-t8)): l[i]=PI[l[i+1]^l[i+t8]]
    return [l[2*i]|l[2*i+1]<<8 for i in range(64)]
M=0xffff
rl=lambda x,s,w:((x<<(s%w))|(x>>(w-s%w) if s%w else 0))&((1<<w)-1)
def rc2(k,n,b):
    K=rc2key(k,n)
    def sp(b): return [b[2*i]|b[2*i+1]<<8 for i in range(4)]
    def jn(d): return b''.join(x.to_bytes(2,'little') for x in d)
    d=sp(b)
    for i in range(16):
        for j,s in enumerate([1,2,3,5]):
            d[j]=rl((d[j]+K[4*i+j]+(d[(j+3)%4]&d[(j+2)%4])+((~d[(j+3)%4]&M)&d[(j+1)%4]))&M,s,16)
        if i in(4,10):
            for j in range(4): d[j]=(d[j]+K[d[(j+3)%4]&63])&M
    e=jn(d); d=sp(b)
    for i in reversed(range(16)):
        if i in(4,10):
            for j in reversed(range(4)): d[j]=(d[j]-K[d[(j+3)%4]&63])&M
        for j,s in reversed(list(enumerate([1,2,3,5]))):
            d[j]=(rl(d[j],16-s,16)-K[4*i+j]-(d[(j+3)%4]&d[(j+2)%4])-((~d[(j+3)%4]&M)&d[(j+1)%4]))&M
    return e.hex()+':'+jn(d).hex()
def rc4(k,d):
    if not k: raise P
    s=list(range(256)); j=0
    for i in range(256):
        j=(k[i%len(k)]+s[i]+j)&255; s[i],s[j]=s[j],s[i]
    x=y=0; o=[]
    for b in d:
        x=(x+1)&255; y=(s[x]+y)&255; s[x],s[y]=s[y],s[x]
        o.append(b^s[(s[x]+s[y])&255])
    return bytes(o)
W=0xffffffff
def rc5(k,r,blk):
    if len(k)>=256: raise P
    c=(len(k)+3)//4
    l=[int.from_bytes(k[i:i+4],'little') for i in range(0,len(k),4)]
    t=2*(r+1); s=[0xb7e15163]
    for i in range(1,t): s.append((s[-1]+0x9e3779b9)&W)
    i=j=a=b=0
    for _ in range(3*max(t,c)):
        a=s[i]=rl((s[i]+a+b)&W,3,32)
        ab=(a+b)&W
        if j>=len(l): raise P
        b=l[j]=rl((l[j]+ab)&W,ab%32,32)
        i=(i+1)%t
        j=(j+1)%c
    a,b=int.from_bytes(blk[:4],'little'),int.from_bytes(blk[4:],'little')
    A,B=a,b
    a=(a+s[0])&W;b=(b+s[1])&W
    for i in range(1,r+1):
        a=(rl(a^b,b%32,32)+s[2*i])&W
        b=(rl(b^a,a%32,32)+s[2*i+1])&W
    e=a.to_bytes(4,'little')+b.to_bytes(4,'little')
    a,b=A,B
    for i in reversed(range(1,r+1)):
        b=rl((b-s[2*i+1])&W,(32-a%32)%32,32)^a
        a=rl((a-s[2*i])&W,(32-b%32)%32,32)^b
    b=(b-s[1])&W;a=(a-s[0])&W
    return e.hex()+':'+(a.to_bytes(4,'little')+b.to_bytes(4,'little')).hex()
# aes port
def m2(n): return (n<<1&255)^(0x1b if n&0x80 else 0)
def m3(n): return n^m2(n)
def d3(n):
    n^=n<<1&255;n^=n<<2&255;n^=n<<4&255
    return n^(9 if n&0x80 else 0)
def gm(a,b):
    r=0
    for _ in range(8):
        if b&1:r^=a
        h=a&0x80;a=a<<1&255
        if h:a^=0x1b
        b>>=1
    return r
SB=[0]*256;IS=[0]*256;SB[0]=0x63;IS[0x63]=0
p=q=1
while p:
    s=q
    for i in(1,2,3,4): s^=rl(q,i,8)
    s^=0x63;SB[p]=s;IS[s]=p
    np_=m3(p);q=d3(q);p=0 if np_==1 else np_
RC=[0]*11;n=1
for i in range(1,11):RC[i]=n;n=m2(n)
def aes(k,b):
    N=len(k)//4;R=N+6
    w=[]
    for i in range(4*(R+1)):
        if i<N:v=list(k[4*i:4*i+4])
        elif i%N==0:
            x=w[i-1];x=[SB[y] for y in(x[1],x[2],x[3],x[0])];x[0]^=RC[i//N];v=[y^z for y,z in zip(w[i-N],x)]
        elif N>6 and i%N==4:v=[y^SB[z] for y,z in zip(w[i-N],w[i-1])]
        else:v=[y^z for y,z in zip(w[i-N],w[i-1])]
        w.append(v)
    keys=[sum(w[4*i:4*i+4],[]) for i in range(R+1)]
    ak=lambda s,i:[x^y for x,y in zip(s,keys[i])]
    def step(s,r):
        t=s[r]
        for i in range(3):s[r+4*i]=s[r+4*i+4]
        s[r+12]=t
    def sh(s,rows):
        s=list(s)
        for r in rows:step(s,r)
        return s
    def mix(s):
        o=[]
        for c in range(4):
            x=s[4*c:4*c+4]
            o+=[m2(x[i])^m3(x[(i+1)%4])^x[(i+2)%4]^x[(i+3)%4] for i in range(4)]
        return o
    def um(s):
        o=[]
        for c in range(4):
            x=s[4*c:4*c+4]
            o+=[gm(x[i],14)^gm(x[(i+1)%4],11)^gm(x[(i+2)%4],13)^gm(x[(i+3)%4],9) for i in range(4)]
        return o
    s=ak(b,0)
    for i in range(1,R): s=ak(mix(sh([SB[x] for x in s],[1,2,2,3,3,3])),i)
    e=ak(sh([SB[x] for x in s],[1,2,2,3,3,3]),R)
    s=ak(b,R); s=[IS[x] for x in sh(s,[1,1,1,2,2,3])]
    for i in reversed(range(1,R)): s=[IS[x] for x in sh(um(ak(s,i)),[1,1,1,2,2,3])]
    return bytes(e).hex()+':'+bytes(ak(s,0)).hex()

ST=list(map(int,re.findall(r'\b\d+\b',re.search(r'const S: \[u8; 256\] = \[(.*?)\];',open('/repo/src/md/md2.rs').read(),re.S).group(1))))
assert len(ST)==256
def md2(m):
    p=16-len(m)%16; m=m+bytes([p])*p
    C=[0]*16;L=0
    for i in range(0,len(m),16):
        for j in range(16):
            C[j]^=ST[m[i+j]^L];L=C[j]
    m+=bytes(C);X=[0]*48
    for i in range(0,len(m),16):
        for j in range(16):X[16+j]=m[i+j];X[32+j]=X[16+j]^X[j]
        t=0
        for r in range(18):
            for k in range(48):X[k]^=ST[t];t=X[k]
            t=(t+r)%256
    return bytes(X[:16]).hex()
def md4(m):
    n=len(m)*8;m=m+b'\x80';m+=bytes((56-len(m))%64)+n.to_bytes(8,'little')
    A=[0x67452301,0xefcdab89,0x98badcfe,0x10325476]
    F=lambda x,y,z:(x&y)|(~x&z&W);G=lambda x,y,z:(x&y)|(x&z)|(y&z);Hh=lambda x,y,z:x^y^z
    for o in range(0,len(m),64):
        x=[int.from_bytes(m[o+4*i:o+4*i+4],'little') for i in range(16)]
        h=list(A)
        for f,c,ks,ss in((F,0,range(16),(3,7,11,19)),(G,0x5a827999,[0,4,8,12,1,5,9,13,2,6,10,14,3,7,11,15],(3,5,9,13)),(Hh,0x6ed9eba1,[0,8,4,12,2,10,6,14,1,9,5,13,3,11,7,15],(3,9,11,15))):
            for i,k in enumerate(ks):
                a,b,cc,d=h
                h=[d,rl((a+f(b,cc,d)+x[k]+c)&W,ss[i%4],32),b,cc]
        A=[(p+q)&W for p,q in zip(A,h)]
    return b''.join(v.to_bytes(4,'little') for v in A).hex()

def rkeys(p,q,e):
    REL[0]=True
    try: return keys(p,q,e)
    finally: REL[0]=False

# BlockEncryption with a cipher that reverses and flips bits, and that panics on blocks that begin with 0xee; chaining mode
def blk(x):
    if x[0]==0xee: raise P
    return bytes(reversed([y^0x5a for y in x]))
def benc(N,iv,data):
    out=[]
    try:
        n=len(data)//N
        last=data[n*N:]
        last=last+bytes([(N-len(last))%256])*(N-len(last))
        for b in [data[i*N:(i+1)*N] for i in range(n)]+[last]:
            iv=blk(bytes(x^y for x,y in zip(iv,b)))
            out+=iv
        return bytes(out).hex()+':ok'
    except P: return bytes(out).hex()+':PANIC'
def bdec(N,iv,data):
    out=[]
    try:
        if len(data)%N: raise P
        nxt=None
        for i in range(len(data)//N):
            b=data[i*N:(i+1)*N]
            o=bytes(x^y for x,y in zip(iv,blk(b)))
            iv=b
            if nxt is not None: out+=nxt
            nxt=o
        if nxt is None: raise P
        if nxt[N-1]>N: raise P
        out+=nxt[:N-nxt[N-1]]
        return bytes(out).hex()+':ok'
    except P: return bytes(out).hex()+':PANIC'
