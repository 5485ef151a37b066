#!/usr/bin/env python3
"""Every def/structure/inductive in lean/Verif/Model must be preceded by a doc comment citing an existing file and lines of /repo."""
import re,glob,os
bad=0
n={os.path.relpath(os.path.join(d,f),'/repo'):sum(1 for _ in open(os.path.join(d,f),errors='replace')) for d,_,fs in os.walk('/repo') if '.git' not in d for f in fs}
for p in sorted(glob.glob('/verif/lean/Verif/Model/*.lean')):
    s=open(p).read()
    for m in re.finditer(r'^(?:@\[[^\]]*\] *)?(?:noncomputable )?(?:def|structure|inductive|abbrev|class|instance) +(\S+)',s,re.M):
        pre=s[:m.start()].rstrip()
        if not pre.endswith('-/'): print(p.split('/')[-1],m.group(1),'no doc'); bad+=1; continue
        doc=pre[pre.rindex('/-'):]
        c=re.findall(r'([\w/_-]+\.(?:rs|toml|MD))(?::(\d+)(?:[-–](\d+))?)?',doc)
        if not c: print(p.split('/')[-1],m.group(1),'no citation:',doc[:90].replace('\n',' ')); bad+=1
        for f,a,b in c:
            f=f.removeprefix('/repo/')
            fs=[k for k in n if k.endswith(f)]
            if not fs: print(p.split('/')[-1],m.group(1),'bad file',f); bad+=1; continue
            if a and not any(n[k]>=int(b or a) for k in fs): print(p.split('/')[-1],m.group(1),'bad range',f,a,b); bad+=1
print(bad,'problems')
