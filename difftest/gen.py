from port import *
R=random.Random(int(sys.argv[1])); K=int(sys.argv[2])
rb=lambda n: bytes(R.choice([0,0,1,0x80,0xff,0x7f]) if R.random()<.4 else R.randrange(256) for _ in range(n))
def raw(mx=6): return rb(R.randrange(mx))
def norm(mx=6):
    b=list(rb(R.randrange(mx))); return bytes(trimz(b))
def big(mx=6): return norm(mx) if R.random()<.75 else raw(mx)
bx=lambda l: bytes(l).hex()
cases=[]
def c(op,args,f):
    try: r=f()
    except P: r='PANIC'
    except Err as e: r='ERR '+str(e)
    cases.append((' '.join([op]+args+['.']),r))
def derlen(n):
    if n<128 and R.random()<.9: return bytes([n])
    k=R.choice([1,2,3,8,9,16]) if R.random()<.5 else max(1,(n.bit_length()+7)//8)
    if n>=256**k: k=(n.bit_length()+7)//8
    d=n.to_bytes(k,'big')
    return bytes([0x80+k])+d
def tree(d=0):
    t=R.choice([2,4,3,5,6,0x30,0x30]) if d<4 else R.choice([2,4,3,5,6])
    if R.random()<.03: t=R.randrange(256)
    if t==0x30: cont=b''.join(tree(d+1) for _ in range(R.randrange(4)))
    elif t==5: cont=b'' if R.random()<.9 else rb(2)
    elif t==3: cont=rb(R.choice([0,1,2,5]) if R.random()<.1 else R.randrange(1,6))
    else: cont=rb(R.randrange(5))
    return bytes([t])+derlen(len(cont))+cont
def mut(b):
    b=bytearray(b)
    for _ in range(R.choice([0,0,0,1,1,2])):
        if not b: break
        o=R.randrange(3);i=R.randrange(len(b))
        if o==0:b[i]=R.choice([0,1,2,0x30,0x80,0x81,0x82,0x90,0x91,0xff,R.randrange(256)])
        elif o==1:del b[i]
        else:b.insert(i,R.randrange(256))
    return bytes(b)
def tlv(t,c): return bytes([t])+derlen(len(c))+c
OID=bytes([42,134,72,134,247,13,1,1,1])
def odd(x,p=.08): return tree(3) if R.random()<p else x
def alg(): return odd(tlv(0x30,odd(tlv(6,OID if R.random()<.95 else rb(9)))+odd(tlv(5,b''))))
def privfile():
    k=9 if R.random()<.9 else R.randrange(12)
    inner=tlv(0x30,b''.join(odd(tlv(2,b'\0' if i==0 and R.random()<.9 else rb(R.randrange(1,5))),.02) for i in range(k)))
    inner=odd(inner)
    els=[odd(tlv(2,b'\0'),.05),alg(),odd(tlv(4,mut(inner) if R.random()<.2 else inner))]
    if R.random()<.08: els.append(tree(3))
    return odd(tlv(0x30,b''.join(els)))
def pubfile():
    k=2 if R.random()<.9 else R.randrange(5)
    inner=odd(tlv(0x30,b''.join(odd(tlv(2,rb(R.randrange(1,5)))) for i in range(k))))
    els=[alg(),odd(tlv(3,(b'\0' if R.random()<.93 else rb(1))+(mut(inner) if R.random()<.2 else inner)))]
    if R.random()<.08: els.append(tree(3))
    return odd(tlv(0x30,b''.join(els)))
def pemtext():
    lab=R.choice(['A','PRIVATE KEY','','x y','-----','é'])
    d=rb(R.randrange(60)); s=show(lab,d)
    if R.random()<.2: s=s.replace('\n','\r\n')
    s=list(s)
    for _ in range(R.choice([0,0,1,1,2,3])):
        o=R.randrange(4);i=R.randrange(len(s))
        if o==0:s[i]=R.choice(['\n','\r',' ','=','-','A',' ','​','　','+','_','\x0b','\x1c','\x85'])
        elif o==1:del s[i]
        elif o==2:s.insert(i,R.choice(['\n','\r','\r\n',' ','=','\t','\x1f','-----BEGIN A-----\n','-----END A-----\n',' ']))
        else: s+=list(R.choice(['\n','\r','\r\n','\nfoo',' ','\n-----END A-----']))
    return ''.join(s)
for _ in range(K):
    a,b=big(),big()
    c('frombe',[bx(a)],lambda:bx(frombe(a))); c('fromle',[bx(a)],lambda:bx(fromle(a)))
    c('bits',[bx(a)],lambda:str(bits(a)))
    i=R.randrange(60); c('isset',[bx(a),str(i)],lambda:str(isset(a,i)).lower())
    s=R.randrange(2); c('upd',[bx(a),str(i),str(s)],lambda:bx(upd(a,i,s)))
    x=rb(1); c('add8',[bx(a),bx(x)],lambda:bx(add8(a,x[0])))
    c('add',[bx(a),bx(b)],lambda:bx(add(a,b)))
    c('cmp',[bx(a),bx(b)],lambda:['Ordering.lt','Ordering.eq','Ordering.gt'][cmp(a,b)+1])
    a2=bytes(a) if R.random()<.1 else b
    c('cmp',[bx(a),bx(a2)],lambda:['Ordering.lt','Ordering.eq','Ordering.gt'][cmp(a,a2)+1])
    c('sub',[bx(a),bx(b)],lambda:bx(sub(a,b)))
    c('sub',[bx(b),bx(a)],lambda:bx(sub(b,a)))
    i=R.randrange(30);c('shl',[bx(a),str(i)],lambda:bx(shl(a,i)))
    c('shr',[bx(a),str(i)],lambda:bx(shr(a,i)))
    c('rem',[bx(a),bx(b)],lambda:bx(rem(a,b)))
    d=big(4);c('rem',[bx(a),bx(d)],lambda:bx(rem(a,d)))
    e=big(20)
    def asu():
        return str(u128(e))
    c('asu',[bx(e)],asu)
    m=big(4);aa=big(4);bb=big(4);c('mulmod',[bx(aa),bx(bb),bx(m)],lambda:bx(mulmod(aa,bb,m)))
    pp=big(3);c('powmod',[bx(aa),bx(pp),bx(m)],lambda:bx(powmod(aa,pp,m)))
    def kk(p,q,e):
        c('rkeys',[bx(p),bx(q),bx(e)],lambda:':'.join(bx(z) for z in rkeys(p,q,e)))
        c('keys',[bx(p),bx(q),bx(e)],lambda:':'.join(bx(z) for z in keys(p,q,e)))
    kk(norm(9),norm(9),norm(5)); 
    kk(tob(R.getrandbits(R.randrange(1,65))),tob(R.getrandbits(R.randrange(1,65))),tob(R.getrandbits(R.randrange(1,128))|1)); kk(tob(R.choice([2,3,5,7,11,13,61,53])),tob(R.choice([2,3,5,7,11,13,61,53])),tob(R.randrange(20)))
    kk(tob(R.getrandbits(64)|1),tob(R.getrandbits(64)|1),tob(R.choice([3,65537,17,R.getrandbits(128)])))
    kk(tob(R.getrandbits(128)),tob(R.getrandbits(R.choice([1,2,8,128]))),tob(R.getrandbits(R.randrange(1,129))))
    t=mut(tree());c('asn1',[bx(t)],lambda:pa(asn1(t)))
    t2=rb(R.randrange(8));c('asn1',[bx(t2)],lambda:pa(asn1(t2)))
    f=privfile();f=mut(f) if R.random()<.3 else f;c('priv',[bx(f)],lambda:':'.join(bx(z) for z in priv(f)))
    g=pubfile();g=mut(g) if R.random()<.3 else g;c('pub',[bx(g)],lambda:':'.join(bx(z) for z in pub(g)))
    s=pemtext()
    def pp_():
        l,dd=pem(s);return l.encode().hex()+':'+dd.hex()
    c('pem',[s.encode().hex()],pp_)
    lab=R.choice(['A','','é x']);dd=rb(R.randrange(120));c('show',[lab.encode().hex(),dd.hex()],lambda:show(lab,dd).encode().hex())
    n=R.choice([1,2,4,8,16,255,256,300]);iv=rb(n);bd=rb(R.choice([0,n,2*n,R.randrange(5*n)]))
    if R.random()<.1: bd=bytes([0xee^iv[0]])+bd[1:] if R.random()<.5 else bd[:n]+b'\xee'+bd[n+1:]
    c('benc',[str(n),iv.hex(),bd.hex()],lambda:benc(n,iv,bd)); c('bdec',[str(n),iv.hex(),bd.hex()],lambda:bdec(n,iv,bd))
    if R.random()<.7: be=bytes.fromhex(benc(n,iv,bd).split(':')[0]); c('bdec',[str(n),iv.hex(),be.hex()],lambda:bdec(n,iv,be))
    n=R.choice([1,4,8,16]);pb=rb(R.randrange(n+2))
    def bp():
        if len(pb)>=n: raise P
        return (pb+b'\x80'+bytes(n-len(pb)-1)).hex()
    def kp():
        if len(pb)>=n: raise P
        return (pb+bytes([n-len(pb)])*(n-len(pb))).hex()
    c('bitpad',[str(n),pb.hex()],bp);c('pkpad',[str(n),pb.hex()],kp)
    fb=rb(n)
    def bu():
        i=fb.rfind(b'\x80')
        if i<0: raise P
        return (fb[:i]+bytes(n-i)).hex()+':'+str(i)
    def ku():
        if fb[-1]>n: raise P
        return str(n-fb[-1])
    c('bitunpad',[str(n),fb.hex()],bu);c('pkunpad',[str(n),fb.hex()],ku)
    if R.random()<.5:
        l=rb(R.randrange(3));m=rb(R.randrange(20));n=R.randrange(60,110)
        c('oaepenc',[l.hex(),m.hex(),str(n)],lambda:oenc(l,m,n).hex())
        try: em=oenc(l,m,n)
        except P: em=rb(R.randrange(80))
        if n>=66 and R.random()<.5:
            db=R.choice([H(l),H(l),H(b'x')])+bytes(R.randrange(3))+R.choice([b'',b'\x01',b'\x02'])+(m if R.random()<.7 else b'')
            sd=rb(32); md=xs(db,mgf(sd,len(db))); em=b'\0'+xs(sd,mgf(md,32))+md
        else: em=mut(em)
        n2=R.choice([n,len(em),len(em),len(em)+1,30])
        c('oaepdec',[l.hex(),em.hex(),str(n2)],lambda:odec(l,em,n2).hex())
    k=rb(R.choice([0,1,2,8,16,127,128,129]));nb=R.choice([0,1,7,8,9,63,64,128,1000,1016,1017,1023,1024,1025,65535,R.randrange(1030)]);bl=rb(8)
    c('rc2',[k.hex(),str(nb),bl.hex()],lambda:rc2(k,nb,bl))
    k4=rb(R.choice([0,1,5,16,256,300]));c('rc4',[k4.hex(),bl.hex()],lambda:rc4(k4,bl).hex())
    k5=rb(R.choice([0,1,3,4,5,16,255,256]));rn=R.choice([0,1,12,20,255]);c('rc5',[k5.hex(),str(rn),bl.hex()],lambda:rc5(k5,rn,bl))
    ka=rb(R.choice([16,24,32]));ba=rb(16);c('aes',[ka.hex(),ba.hex()],lambda:aes(ka,ba))
    mm=rb(R.choice([0,1,55,56,63,64,111,112,119,120,127,128,R.randrange(300)]))
    for h in ['md5','sha1','sha224','sha256','sha384','sha512']:
        if R.random()<.3: c(h,[mm.hex()],lambda:hashlib.new(h,mm).hexdigest())
    c('md2',[mm.hex()],lambda:md2(mm)); c('md4',[mm.hex()],lambda:md4(mm))
    hs=R.choice([b'00ff10',b'00FF1',b'zz0000',b'00ff1041',b'AaBbCc',b''])
    def fh():
        if len(hs)%2: raise Err
        try:v=bytes.fromhex(hs.decode())
        except ValueError: raise Err
        if len(v)!=3: raise Err
        return v.hex()
    c('fromhex',['3',hs.hex()],fh)
for _ in range(K//100000):
    # RSA messages with real 640-bit keys
    def isp(n): return all(pow(a,n-1,n)==1 for a in(2,3,5,7,11))
    def pr(b):
        while 1:
            x=R.getrandbits(b)|1|1<<(b-1)
            if isp(x): return x
    pz,qz=pr(300),pr(284)
    nz=pz*qz; le=lambda v:list(v.to_bytes((v.bit_length()+7)//8,'little'))
    e=le(17); nn=le(nz)
    m=rb(R.randrange(0,10))
    c('rsaenc',[bx(e),bx(nn),m.hex()],lambda:rsaenc(e,nn,m).hex())
    try:
        ct=rsaenc(e,nn,m)
        try:
            dz=le(pow(17,-1,(pz-1)*(qz-1)))
            if R.random()<.5: ct=mut(ct)
            c('rsadec',[bx(dz),bx(nn),ct.hex()],lambda:rsadec(dz,nn,ct).hex())
        except ValueError: pass
    except P: pass
open('in.txt','w').write('\n'.join(x for x,_ in cases)+'\n')
open('exp.txt','w').write('\n'.join(y for _,y in cases)+'\n')
print(len(cases))
