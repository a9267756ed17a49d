import json,sys
from decimal import Decimal
def enc(v,out):
    if v is None: out.append("n")
    elif v is True: out.append("t")
    elif v is False: out.append("f")
    elif isinstance(v,int): out.append("i%d"%v)
    elif isinstance(v,Decimal):
        n,d=v.as_integer_ratio(); out.append("r%d/%d"%(n,d))
    elif isinstance(v,str): out.append("s"+v.replace("\\","\\\\").replace("\n","\\n"))
    elif isinstance(v,list):
        out.append("l%d"%len(v))
        for x in v: enc(x,out)
    else:
        out.append("d%d"%len(v))
        for k,x in v.items():
            out.append("s"+k.replace("\\","\\\\").replace("\n","\\n")); enc(x,out)
def dump(src,dst):
    out=[]; enc(json.load(open(src),parse_float=Decimal),out)
    open(dst,'w').write("\n".join(out)+"\n")
def dec(lines):
    it=iter(lines)
    def go():
        l=next(it); c,r=l[0],l[1:]
        if c=='n': return None
        if c=='t': return True
        if c=='f': return False
        if c=='i': return int(r)
        if c=='r':
            n,d=r.split('/'); return ('r',int(n),int(d))
        if c=='s': return r.replace("\\n","\n").replace("\\\\","\\")
        if c=='l': return [go() for _ in range(int(r))]
        d={}
        for _ in range(int(r)):
            k=go(); d[k]=go()
        return d
    return go()
def load(p): return dec(open(p).read().split("\n"))
