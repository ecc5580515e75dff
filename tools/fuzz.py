# Compares the Lean models of Python built-ins with the running CPython on random inputs: fuzz.py SEED COUNT [nou]
import random,subprocess,re,json,base64,hashlib,sys,ipaddress,time,calendar
from decimal import Decimal,InvalidOperation,getcontext
from datetime import timedelta, datetime, timezone
import os,urllib.parse,urllib.request
urllib.request.unquote=lambda s: 'U' if '%' in s else s
os.environ['TZ']='CET-1CEST,M3.5.0,M10.5.0/3'; time.tzset()
seed=int(sys.argv[1]); N=int(sys.argv[2]); R=random.Random(seed)
HOST=re.compile(r'^(([a-zA-Z]{1})|([a-zA-Z]{1}[a-zA-Z]{1})|([a-zA-Z]{1}[0-9]{1})|([0-9]{1}[a-zA-Z]{1})|([a-zA-Z0-9][a-zA-Z0-9-_]{1,61}[a-zA-Z0-9]))\.([a-zA-Z]{2,6}|[a-zA-Z0-9-]{2,30}\.[a-zA-Z]{2,3})$')
BOT=re.compile(r'^[A-Za-z]{1}[A-Za-z\-0-9]{3,61}[A-Za-z0-9]{1}(\.[A-Za-z]{1}[A-Za-z\-0-9]{3,55}[A-Za-z0-9]{1})*$')
DUR=re.compile(r'^((?P<days>[\.\d]+?)d)?((?P<hours>[\.\d]+?)h)?((?P<minutes>[\.\d]+?)m)?((?P<seconds>[\.\d]+?)s)?$')
S=lambda s:','.join(str(ord(c)) for c in s)
B=lambda b:','.join(str(c) for c in b)
def D(d):
    t=d.as_tuple()
    if isinstance(t.exponent,str): return 'special'
    return '%s %d %d'%('true' if t.sign else 'false', int(''.join(map(str,t.digits))or'0'), t.exponent)
SP=[chr(c) for c in (9,10,11,12,13,28,29,30,31,32,0x85,0xa0,0x2000,0x3000,0x200b)]
UD=[] if len(sys.argv)>3 else [chr(c) for c in (0x660,0x665,0xff11,0x1d7ce,0x966,0xb2,0x2460)]
def txt(alpha,n=None):
    n=R.choice([0,1,1,2,2,3,3,4,5,6,8,12]) if n is None else n
    return ''.join(R.choice(alpha) for _ in range(n))
def mix(*alphas): return sum([list(a) for a in alphas],[])
def rdec():
    k=R.choice([1,2,5,9,20,27,28,29,30,40])
    c=R.choice([0,R.randrange(10**k),10**k-1,10**k,5*10**(k-1),R.randrange(10**k)//10**(k//2)*10**(k//2)])
    return (R.random()<.4,c,R.choice([0,0,-9,-9,R.randrange(-30,30),R.randrange(-60,60)]))
def dd(x): return Decimal((1 if x[0] else 0,tuple(map(int,str(x[1]))),x[2]))
def sd(x): return '%s %d %d'%('true' if x[0] else 'false',x[1],x[2])
jobs=[]
def J(k,*a): jobs.append((k,a))
ints=mix('0123456789'*2,'+-_',SP[:3],SP,UD,'ax.eE')
decs=mix('0123456789'*3,'+-_...eE',SP,UD,'infaInNFTyst')
def jtext(d=0):
    r=R.random()
    if d>3 or r<.35: return R.choice(['0','1','-1','-0','01','1.5','1e5','1E','-','true','false','null','nul','NaN','Infinity','-Infinity','""','"a"','"\\u00e9"','"\\ud83d\\ude00"','"\\ud83d"','"\\n\\/"','"\\x"','"\n"','"\x7f"','"é"','123456789012345678901234567890','"\\u12"','"\\uD800\\u0041"','-01','1.','.5','"\\u000"','\ufeff1','"\t"'])
    ws=lambda:R.choice(['','','',' ','\n','\t ','\x0b','\xa0'])if R.random()<.3 else ''
    if r<.7:
        n=R.randrange(4); return '['+ws()+(','+ws()).join(jtext(d+1)+ws() for _ in range(n))+R.choice(['','','','',','])+R.choice([']',']',']',']',''])
    n=R.randrange(4); return '{'+ws()+(','+ws()).join(R.choice(['"a"','"b"','""','a','1','"\\u0061"'])+ws()+R.choice([':',':',':',':',''])+ws()+jtext(d+1)+ws() for _ in range(n))+R.choice(['','','','',','])+R.choice(['}','}','}','}',''])
for i in range(N):
    J('strip',txt(mix(SP,'ab\u200b')))
    J('upper',txt('abcXYZ019 -_@[`{'))
    J('fromHex',txt(mix('0123456789abcdefABCDEF',' \t\n\x0b\x0c\r',['g','é','\xa0','٠'])if R.random()<.5 else mix('0123456789abcdefABCDEF'*3,' \n')))
    J('toB64',bytes(R.randrange(256) for _ in range(R.randrange(12))))
    J('fromB64',txt(mix('ABCabc019+/'*3,'====',' \n!_-',['é'])))
    J('int',txt(ints)); J('int',txt(SP[:2])+R.choice(['','+','-'])+txt('0123456789_')+txt(SP[:2]))
    J('hexok',txt(mix('0123456789abcdefABCDEF','xX_+-',SP,UD,'0x'*6)))
    J('dec',txt(decs)); J('dec',R.choice(['',' ','+','-'])+txt('0123456789')+R.choice(['','.'])+txt('0123456789')+R.choice(['','e','E','e-','e+'])+txt('0123456789_',R.randrange(3)))
    J('cur',txt(decs)+R.choice(['',' TFT','tft','tFt ','  Tft\n']))
    J('cur',txt('0123456789')+R.choice(['','.'])+txt('0123456789')+R.choice(['',' TFT','tft','tFt ','  Tft\n']))
    a,b=rdec(),rdec()
    for k in('add','sub','mul','lt','eq'): J(k,a,b)
    if b[2]>=-9: J('fmt9',b)
    J('utf8',txt([chr(c) for c in (65,0x7f,0x80,0x7ff,0x800,0xffff,0x10000,0x10ffff,0xe9)]))
    J('deutf8',bytes(R.choice([65,0x7f,0x80,0xbf,0xc0,0xc2,0xc3,0xdf,0xe0,0xa0,0x9f,0xed,0xef,0xf0,0x90,0x8f,0xf4,0xf5,0xff]) for _ in range(R.randrange(5))))
    J('loads',jtext())
    J('host',txt(mix('aZ09-_',".."),R.choice([1,2,3,4,5,6,8,12,60,66,70]))+R.choice(['.','','.com','.co','.co.uk','.a-b.uk','.abcdefg','.c','\n','.com\n','.é']))
    J('bot',R.choice(['a','Z','1','-',''])+txt('aZ0-',R.choice([1,2,3,4,55,60,61,62]))+R.choice(['','a','-','.abcde','.abcd','.1bcde','\n','.abcde\n'])+R.choice(['','','.'+'a'*57,'.'+'a'*58,'.abcde']))
    oc=lambda:R.choice(['0','1','12','255','256','01','1234','','a','٣','99','00'])if R.random()<.4 else str(R.randrange(256))
    v4=lambda:'.'.join(oc() for _ in range(R.choice([4,4,4,4,4,4,3,5])))
    hx=lambda:R.choice(['0','0','','12345','g','00','AbC','ffff','٣'])if R.random()<.2 else '%x'%R.choice([0,R.randrange(65536)])
    def v6():
        g=lambda n:[hx() for _ in range(n)]
        n=R.randrange(9); m=max(0,R.choice([8,7,7,6,5,R.randrange(10)])-n)
        a,b=g(n),g(m)
        if b and R.random()<.3: b[-2:]=[v4()]
        return R.choice([':'.join(a)+'::'+':'.join(b)]*3+[':'.join(a+b)]*2+[':'+':'.join(a+b),':'.join(a+b)+':'])+R.choice(['']*6+['%','%eth0','%a%b','%/','/64','\n'])
    J('ip',v4()); J('ip',v6()); J('ip',v6()); J('ip',txt('12af:::..%'))
    J('ipstr',bytes(R.randrange(256) for _ in range(4)))
    J('ipstr',b''.join(R.choice([b'\0\0',b'\0\0',b'\0\1',bytes([R.randrange(256),R.randrange(256)])]) for _ in range(8)))
    nn=lambda k:R.choice([str(R.randrange(k)),'%02d'%R.randrange(k)]*8+[str(k),txt('0123456789'),txt(mix('0123456789',UD,' '),2)])
    yy=lambda:R.choice([str(R.randrange(1,10000)),'%04d'%R.randrange(10000),'2000','1900','2019','2020','%02d'%R.randrange(100),nn(12)])
    sp=R.choice([' ']*8+['  ','\t','',' '+R.choice(SP)])
    ds,df=R.choice([('/'.join([yy(),nn(13),nn(32)]),'%Y/%m/%d')]*2+[('/'.join([nn(32),nn(13),yy()]),'%d/%m/%Y'),('/'.join(['%02d'%R.randrange(100),nn(13),nn(32)]),'%y/%m/%d'),(yy()+'/2/29','%Y/%m/%d')])
    ts,tf=R.choice([('00:00:00','%H:%M:%S'),(nn(24)+':'+nn(60),'%H:%M'),(':'.join([nn(24),nn(60),nn(62)]),'%H:%M:%S'),(nn(13)+R.choice(['am','PM','pm','Am','m'])+':'+nn(60),'%I%p:%M'),(nn(13)+R.choice(['am','PM','pm','Am','aM'])+':'+nn(60)+':'+nn(62),'%I%p:%M:%S')])
    J('date',ds+sp+ts+R.choice(['']*9+[' ','x']),df+' '+tf)
    J('gm',str(R.choice([R.randrange(-30610224000,253402300800),R.randrange(86400)+86400*(365*R.randrange(40)+R.randrange(-2,12)),R.randrange(2**32)])))
    J('td',str(R.choice([R.randrange(-10**6,10**6),R.randrange(-2**53,2**53),R.randrange(-86399999999999,86399999999999999999),R.randrange(10**12)*10**6+R.choice([0,1,999999])])))
    us=lambda:str(R.choice([0,0,1,999999,500000,R.randrange(10**6)]))
    J('ltsec',str(R.choice([R.randrange(1546387200,1577664000),R.choice([1553994000,1572138000])+R.randrange(-12000,12000)])),us(),R.choice('01'))
    J('utsec',str(R.choice([R.randrange(2**32),R.randrange(-62135510400,253402214400),253402214399])),us(),str(R.randrange(-1439,1440)))
    um='abcxyzAZ019-._~:/?#[]@!$&;=%<> \t\né'
    J('url',R.choice(['http','https','HTTP','Https','file','ftp','foo','x-y','é','9','','URL:http','<http',' http'])+R.choice(['://']*6+[':/',':','//','/'])+
      R.choice(['']*2+['a.b','example.org:80','[::1]','[::1]:80','[1.2.3.4]','[v1.x]','[v.x]','[','a]','u@h','%41b','x'])+''.join(R.choice(um) for _ in range(R.randrange(9)))+R.choice(['','/explorer','/a;b','/a;','?','#','/x?y=1','#f#','>']))
    J('url',R.choice(['https://','hTtp://'])+R.choice(['explorer.org','a:23110','[::1]'])+R.choice(['','/x','/a;b','/'])+R.choice(['/explorer','/explorer/hashes/00ff','/explorer/3bot/-1','/explorer/whois/3bot/a-b.cd','/explorer/?']))
    J('blake',bytes(R.randrange(256) for _ in range(R.choice([0,1,63,64,127,128,129,130,255,256,257]))) if i%20==0 else b'')
    J('sha',bytes(R.randrange(256) for _ in range(R.choice([0,1,55,56,57,63,64,65,119,120]))) if i%20==0 else b'')
    J('dur',''.join(txt('0123456789'*3+'.',R.randrange(1,R.choice([4,9,25])))+u for u in 'dhms' if R.random()<.5))
    J('dur',''.join(str(R.randrange(10**R.randrange(1,9)))+'.'+txt('0005999',R.randrange(1,10))+u for u in 'dhms' if R.random()<.5))
    J('delta',R.choice('+--- ')+txt(mix('0123456789'*3,'.._eE+-',SP[:1])),str(R.choice([1,60,3600,86400,604800,2628000,31536000])))
    J('delta',R.choice('+---')+txt('0123456789',R.randrange(1,9))+'.'+txt('0123456789',R.randrange(0,9))+R.choice(['','','','e5','E-3','e+12','e300','e-310','_']),str(R.choice([1,60,3600,86400,604800,2628000,31536000])))
    J('delta',R.choice(['inf','nan','Infinity','-iNf','+nan','infi','1_0.5','1__0','1._5','_1','-1_0e1_0','１.５','-٣']),'60')
    J('dur',txt(mix('0123456789'*2,'dhmsdhms','. \'"',SP[:2])))
    J('dur',''.join(txt('0123456789',R.randrange(1,7))+u for u in 'dhms' if R.random()<.5)+R.choice(['','',' ',"'",'x','5']))
def exp(k,a):
    x=a[0]
    try:
        if k=='ip': return 'some '+B(ipaddress.ip_address(x).packed)
        if k=='ipstr': return S(str(ipaddress.ip_address(x)))
        if k=='date': return 'some '+str(calendar.timegm(time.strptime(x,a[1])))
        if k=='url':
            sc,nl,pa,pr,q,fr=urllib.parse.urlparse(x)
            try: r=urllib.request.Request(urllib.parse.urlunparse((sc,nl,pa,pr,'Q' if q else '',fr)))
            except (TypeError,AttributeError) as e: return 'odd '+repr(e)
            return 'some %s|%s|%s'%(S(r.type),'none' if r.host is None else 'some '+S(r.host),S(r.selector))
        if k=='td': return str(int(timedelta(microseconds=int(x)).total_seconds()))
        if k=='ltsec': return str(int((datetime(1970,1,1)+timedelta(seconds=int(x))).replace(microsecond=int(a[1]),fold=int(a[2])).timestamp()))
        if k=='utsec': return str(int((datetime(1970,1,1)+timedelta(seconds=int(x))).replace(microsecond=int(a[1]),tzinfo=timezone(timedelta(minutes=int(a[2])))).timestamp()))
        if k=='gm': return S(time.strftime('%Y/%m/%d %H:%M:%S',time.gmtime(int(x))))
        if k=='strip': return S(x.strip())
        if k=='upper': return S(x.upper())
        if k=='fromHex': return 'some '+B(bytearray.fromhex(x))
        if k=='toB64': return S(base64.b64encode(x).decode())
        if k=='fromB64': return 'some '+B(base64.b64decode(x))
        if k=='int': return 'some '+str(int(x))
        if k=='hexok': int(x,16); return 'true'
        if k=='dec': return 'some '+D(Decimal(x))
        if k=='cur':
            v=x.upper().strip()
            if len(v)>=4 and v[-3:]=='TFT': v=v[:-3].rstrip()
            try: d=Decimal(v)
            except InvalidOperation: return 'invalid'
            s,_,e=d.as_tuple()
            if isinstance(e,str): return 'type'
            if e<-9 or s: return 'name'
            return 'ok '+D(d)
        if k in('add','sub','mul'):
            p,q=dd(a[0]),dd(a[1]); return D({'add':p+q,'sub':p-q,'mul':p*q}[k])
        if k=='lt': return str(dd(a[0])<dd(a[1])).lower()
        if k=='eq': return str(dd(a[0])==dd(a[1])).lower()
        if k=='fmt9': return S('{:.9f}'.format(dd(x)))
        if k=='utf8': return B(x.encode())
        if k=='deutf8': return 'some '+S(x.decode('utf-8'))
        if k=='host': return str(bool(HOST.match(x))).lower()
        if k=='bot': return str(bool(BOT.match(x))).lower()
        if k=='blake': return B(hashlib.blake2b(x,digest_size=32).digest())
        if k=='sha': return B(hashlib.sha256(x).digest())
        if k=='loads': return 'ok '+S(json.dumps(json.loads(x),ensure_ascii=False,sort_keys=False,indent=0))
        if k=='delta':
            try: return str(int(float(x)*int(a[1])))
            except OverflowError: return 'overflow'
        if k=='dur':
            v=x
            if v in [0,"0",None,""]: return '0'
            v=v.replace("'","").replace('"','').strip()
            if v.isdigit(): return str(int(v))
            p=DUR.match(v)
            if p is None: return 'refused'
            try:
                tp={n:float(q) for n,q in p.groupdict().items() if q}
                return str(int(timedelta(**tp).total_seconds()))
            except OverflowError: return 'overflow'
    except (ValueError,InvalidOperation,TypeError) as e:
        if k=='hexok': return 'false'
        if k=='loads': return 'refused'
        if k in ('dur','delta'): return 'refused'
        return 'none'
jobs=[(k,a) for k,a in jobs if k!='delta' or not re.search('[eE][+-]?[0-9_]{4}',a[0])]
lines=[]
for k,a in jobs:
    f=[]
    for x in a:
        f.append(S(x) if isinstance(x,str) else B(x) if isinstance(x,bytes) else sd(x))
    lines.append(k+'\t'+'\t'.join(f))
import tempfile,os,shutil
here=os.path.dirname(os.path.abspath(__file__))
src=os.path.join(tempfile.mkdtemp(),'F.lean')
shutil.copy(os.path.join(here,'fuzz_lean.txt'),src)
p=subprocess.run(['lake','env','lean','--run',src],cwd=os.path.join(here,'../lean'),input='\n'.join(lines)+'\n',capture_output=True,text=True)
out=p.stdout.split('\n')
if p.stderr: print(p.stderr[:500])
bad={}
n=0
for (k,a),o in zip(jobs,out):
    e=exp(k,a)
    if k=='loads' and o=='beyond': continue
    n+=1
    if e!=o:
        bad.setdefault(k,[]).append((a,o,e))
print(len(jobs),len(out),n)
for k,v in bad.items():
    print(k,len(v))
    for x in sorted(v,key=lambda x:len(str(x)))[:14]: print('   ',x)
