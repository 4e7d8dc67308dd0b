"""Check the citations in the model: every cited file and line range exists, and when the comment begins with a backquoted
python/C name, that name occurs within the cited lines (or within 3 lines of them)."""
import re,glob,os
bad=0
for p in sorted(glob.glob('/verif/lean/Verif/Model/*.lean')):
    s=open(p).read()
    cur=None
    for m in re.finditer(r'/--(.*?)-/|/-(.*?)-/',s,re.S):
        t=(m.group(1) or m.group(2)); line=s[:m.start()].count('\n')+1
        for c in re.finditer(r'(?:((?:/repo/)?[\w/]+\.(?:py|c|h)):|\blines? )(\d+)(?:-(\d+))?',t):
            if c.group(1):
                f=c.group(1)
                cur=next((x for x in (f,'/repo/pygeode/'+f,'/repo/'+f,'/repo/pygeode/formats/'+f,'/repo/pygeode/plot/'+f) if os.path.exists(x)),f)
            if not cur: continue
            if not os.path.exists(cur): print(p,line,'no file',cur); bad+=1; continue
            src=open(cur,errors='replace').read().split('\n')
            a=int(c.group(2)); b=int(c.group(3) or a)
            if b>len(src) or a>b: print(os.path.basename(p),line,'range',cur,a,b); bad+=1; continue
            before=t[:c.start()]
            names=re.findall(r'`([^`]+)`',before)
            if not names: continue
            n=names[-1]
            n2=re.split(r'[\(\[ =]',n.split('.')[-1])[0].strip('_')
            if len(n2)<3: continue
            txt='\n'.join(src[max(0,a-4):b+3])
            if n2 not in txt:
                print(os.path.basename(p),line,n,cur.replace('/repo/pygeode/',''),a,b); bad+=1
print('suspicious',bad)
